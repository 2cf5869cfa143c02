import Verif.Lemmas.ClientAck
/-
An ack callback goes into the queue with at most one event.
-/
namespace SIO
open Spec

/-- The ack callbacks of the events put into the queue. -/
def mailed (tr : List Ev) : List Cb :=
  tr.filterMap fun
    | .enqueued (.emit _ (some (_, c))) _ => some c
    | _ => none

@[simp] theorem mailed_append (a b : List Ev) : mailed (a ++ b) = mailed a ++ mailed b := by simp [mailed]

structure OnceInv (tr : List Ev) (s : Sys) : Prop where
  nodup : (mailed tr).Nodup
  regd : ∀ c ∈ mailed tr, ∃ ns id, .registered ns id c ∈ tr
  sending : ∀ ns id c, sendingCb s.emit = some (ns, id, c) → c ∉ mailed tr

theorem onceinv_congr {tr evs : List Ev} {s s' : Sys} (hi : OnceInv tr s) (h1 : mailed evs = [])
    (h2 : ∀ x, sendingCb s'.emit = some x → sendingCb s.emit = some x) : OnceInv (tr ++ evs) s' := by
  obtain ⟨k1, k2, k3⟩ := hi
  constructor
  · simpa [h1] using k1
  · intro c hc
    obtain ⟨ns, id, h⟩ := k2 c (by simpa [h1] using hc)
    exact ⟨ns, id, by simp [h]⟩
  · intro ns id c h
    simpa [h1] using k3 ns id c (h2 _ h)

theorem onceinv_trans {cfg : RCfg} {tr : List Ev} {s s' : Sys} {evs : List Ev} (ha : AInv tr s) (hi : OnceInv tr s)
    (ht : Trans cfg s s' evs) : OnceInv (tr ++ evs) s' := by
  cases ht with
  | sendOk src g s0 evs hs hl hc =>
    cases hs with
    | emit ns cb g h ho =>
      cases cb with
      | none => exact onceinv_congr hi (by simp [mailed]) (by simp [sendingCb])
      | some x =>
        obtain ⟨id, c⟩ := x
        have hsend : sendingCb s.emit = some (ns, id, c) := by rw [h]; rfl
        have e : mailed (tr ++ ([] ++ [.enqueued (.emit ns (some (id, c))) g])) = mailed tr ++ [c] := by simp [mailed]
        refine ⟨?_, ?_, by simp [sendingCb]⟩
        · rw [e, List.nodup_append]
          refine ⟨hi.nodup, by simp, ?_⟩
          intro a h1 b h2
          rw [List.mem_singleton] at h2
          subst h2
          rintro rfl
          exact hi.sending _ _ _ hsend h1
        · intro d hd
          rw [e] at hd
          rcases List.mem_append.1 hd with hd | hd
          · obtain ⟨ns', id', h'⟩ := hi.regd d hd
            exact ⟨ns', id', by simp [h']⟩
          · rw [List.mem_singleton] at hd
            subst hd
            exact ⟨ns, id, by simp [ha.sending _ _ _ hsend]⟩
    | _ => exact onceinv_congr hi (by simp [mailed]) (fun _ h => h)
  | sendFail src g s0 evs hs hc =>
    cases hs with
    | emit ns cb g h ho => exact onceinv_congr hi (by simp [mailed]) (by simp [sendingCb])
    | _ => exact onceinv_congr hi (by simp [mailed]) (fun _ h => h)
  | emitRegister ns id cb bld g h h2 h3 =>
    have hf := ha.fresh id cb (by rw [h]; rfl)
    refine ⟨by simpa [mailed] using hi.nodup, ?_, ?_⟩
    · intro d hd
      obtain ⟨ns', id', h'⟩ := hi.regd d (by simpa [mailed] using hd)
      exact ⟨ns', id', by simp [h']⟩
    · intro ns' id' c hc
      simp only [sendingCb, Option.some.injEq, Prod.mk.injEq] at hc
      obtain ⟨rfl, rfl, rfl⟩ := hc
      intro hm
      obtain ⟨ns', id', h'⟩ := hi.regd _ (show cb ∈ mailed tr by simpa [mailed] using hm)
      exact hf.2.2 _ _ h'
  | recvEvent w st ns name cb A ack =>
    cases ack <;> exact onceinv_congr hi (by simp [mailed]) (fun _ h => h)
  | recvEventPanic w st ns name cb A ack =>
    cases ack <;> exact onceinv_congr hi (by simp [mailed]) (fun _ h => h)
  | _ => exact onceinv_congr hi (by simp [mailed]) (by first | exact fun _ h => h | simp [sendingCb])

theorem onceinv {cfg : RCfg} {acts : List Act} {s : Sys} {tr : List Ev} (h : Runs cfg acts s tr) : OnceInv tr s :=
  (exec_induct (P := fun tr s => AInv tr s ∧ OnceInv tr s)
    ⟨ainv (acts := []) (cfg := cfg) rfl, by constructor <;> simp [mailed, Sys.init, sendingCb]⟩
    (fun _ _ _ _ hi ht => ⟨ainv_trans hi.1 ht, onceinv_trans hi.1 hi.2 ht⟩) acts s tr h).2

end SIO
