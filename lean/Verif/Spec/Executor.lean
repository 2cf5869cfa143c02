import Verif.Executor
import Verif.Spec.Client
/-
Executions with an executor that may drop the task.
-/
namespace SIO.Spec

/-- The execution the schedule `acts` leads to. -/
def KRuns (cfg : RCfg) (acts : List KAct) (s : Sys) (tr : List KEv) : Prop := kexec cfg Sys.init acts = some (s, tr)

/-- Something the task does, or a message that is put into its queue. -/
def ByTask : Ev → Prop
  | .received _ => True
  | .eff _ => True
  | .enqueued _ _ => True
  | .dequeued _ => True
  | .wrote _ => True
  | .writeFailed _ => True
  | .groupDone => True
  | .closeSeen => True
  | .taskEnd _ => True
  | .taskDropped => True
  | _ => False

end SIO.Spec
