import Verif.Client
/-
An executor that drops the connection task, for example because its runtime is shut down.

The future of the task is dropped like when it ends: the receiver with its sender, the receiving end of the queue, the open
and the close channel.  The remote handle then has nothing to wait for and panics when it is polled
(`RemoteHandle::poll` of futures resumes with `Canceled`), connection.rs:100; a waiting `connect` panics as in C37,
connection.rs:73.
-/
namespace SIO

/-- An action of the machine, or the executor drops the task. -/
inductive KAct where
  | act (a : Act)
  | kill

/-- An observation of the machine, or that the task was dropped. -/
inductive KEv where
  | ev (e : Ev)
  | killed

/-- One action; the task can be dropped between two polls, that is between any two actions. -/
def kstep (cfg : RCfg) (s : Sys) : KAct → Option (Sys × List KEv)
  | .act a =>
    match step cfg s a with
    | none => none
    | some (s', evs) => some (s', evs.map .ev)
  | .kill => if s.task.live then some (s.endTask (.done .panic), [.killed]) else none

/-- A schedule. -/
def kexec (cfg : RCfg) (s : Sys) : List KAct → Option (Sys × List KEv)
  | [] => some (s, [])
  | a :: as =>
    match kstep cfg s a with
    | none => none
    | some (s', evs) =>
      match kexec cfg s' as with
      | none => none
      | some (s'', evs') => some (s'', evs ++ evs')

end SIO
