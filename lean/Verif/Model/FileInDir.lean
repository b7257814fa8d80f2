/-!
# Model of `fileInDir`
-/

set_option autoImplicit false

namespace Mdso.Util

/-- `fileInDir` (source/util/util.cpp:275-280). -/
def fileInDir (directoryName fileName : List Char) : List Char :=
  if directoryName.length > 1 && directoryName.getLast? == some '/' then directoryName ++ fileName
  else directoryName ++ ['/'] ++ fileName

end Mdso.Util
