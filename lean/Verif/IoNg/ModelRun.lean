import Verif.IoNg.ModelGroup

/-!
# Model of the record of a run in a file, src/ApplicationInfo.h
-/

namespace Verif.IoNg

variable {α : Type}

/-- The members of `ApplicationInfo`, src/ApplicationInfo.h:248-251, without the number of the process. -/
structure AppInfo where
  name : Str
  runId : Str
  isFinalized : Bool

/-- The constructor, src/ApplicationInfo.h:101-107; the identifier of the run is given (see `Host.runIdInternal`). -/
def AppInfo.mk' (name runId : Str) : AppInfo := ⟨name, runId, false⟩

/-- `finalize`, src/ApplicationInfo.h:109. -/
def AppInfo.finalize (a : AppInfo) : AppInfo := { a with isFinalized := true }

/-- `write`, src/ApplicationInfo.h:146-161; `time` is `unixTime(false)`, src/ApplicationInfo.h:111-116: seconds, not negative, in a
`long`, for which the type of `SizeType` is taken here. -/
def AppInfo.write [DecidableEq α] (a : AppInfo) (time : Nat) (f : File α) (label : Str) : Out (File α) :=
  if a.isFinalized then .ok (writeScalar f (label ++ "/UnixTimeEnd".toList) .size (.int time) .no)
  else do
    let f ← createGroup f label
    let f ← writeString f (label ++ "/Name".toList) a.name .no
    let f ← writeString f (label ++ "/RunId".toList) a.runId .no
    return writeScalar f (label ++ "/UnixTimeStart".toList) .size (.int time) .no

end Verif.IoNg
