import Verif.Lemmas.ClientAck
import Verif.Props.Receiver
/-
Invariants of the client machine: contents of the groups in the queue, reply handles, received
messages, the open packet.
-/
namespace SIO
open Spec

/-- What is put into the queue for an event. -/
structure EmInv (tr : List Ev) (s : Sys) : Prop where
  args : ∀ ns cb b, s.emit = some (.args ns cb b) →
    ∃ (ev : Str) (binary : Bool) (b0 : Builder) (vs : List SVal),
      Builder.newEvent ev ns (cb.map Prod.fst) binary = .ok b0 ∧ b = adds b0 vs
  sending : ∀ ns cb g, s.emit = some (.sending ns cb g) → EventGroup ns (cb.map Prod.fst) g
  queued : ∀ ns cb g, .enqueued (.emit ns cb) g ∈ tr → EventGroup ns (cb.map Prod.fst) g

theorem adds_snoc (b : Builder) (vs : List SVal) (v : SVal) : adds b (vs ++ [v]) = ((adds b vs).serializeArg v).1 := by
  simp [adds]

theorem eminv_congr {tr evs : List Ev} {s s' : Sys} (hi : EmInv tr s) (he : s'.emit = s.emit ∨ s'.emit = none ∨
    ∃ ns ev b cb, s'.emit = some (.building ns ev b cb))
    (hq : ∀ ns cb g, .enqueued (.emit ns cb) g ∉ evs) : EmInv (tr ++ evs) s' := by
  obtain ⟨h1, h2, h3⟩ := hi
  have h3' : ∀ ns cb g, .enqueued (.emit ns cb) g ∈ tr ++ evs → EventGroup ns (cb.map Prod.fst) g := by
    intro ns cb g h
    rcases List.mem_append.1 h with h | h
    · exact h3 _ _ _ h
    · exact absurd h (hq _ _ _)
  rcases he with he | he | ⟨ns, ev, b, cb, he⟩
  · exact ⟨by rw [he]; exact h1, by rw [he]; exact h2, h3'⟩
  · exact ⟨by rw [he]; simp, by rw [he]; simp, h3'⟩
  · exact ⟨by rw [he]; simp, by rw [he]; simp, h3'⟩

theorem eminv_trans {cfg : RCfg} {tr : List Ev} {s s' : Sys} {evs : List Ev} (hi : EmInv tr s) (ht : Trans cfg s s' evs) :
    EmInv (tr ++ evs) s' := by
  cases ht with
  | sendOk src g s0 evs hs hl' hc =>
    cases hs with
    | emit ns cb g h ho =>
      refine ⟨by simp, by simp, ?_⟩
      intro ns' cb' g' h'
      simp only [List.nil_append, List.mem_append, List.mem_singleton, Ev.enqueued.injEq, Src.emit.injEq] at h'
      rcases h' with h' | ⟨⟨rfl, rfl⟩, rfl⟩
      · exact hi.queued _ _ _ h'
      · exact hi.sending _ _ _ h
    | _ => exact eminv_congr hi (Or.inl rfl) (by simp)
  | sendFail src g s0 evs hs hc =>
    cases hs with
    | emit ns cb g h ho => exact eminv_congr hi (Or.inr (Or.inl rfl)) (by simp)
    | _ => exact eminv_congr hi (Or.inl rfl) (by simp)
  | recvEvent w st ns name cb A ack _ _ _ => cases ack <;> exact eminv_congr hi (Or.inl rfl) (by simp)
  | recvEventPanic w st ns name cb A ack _ _ _ => cases ack <;> exact eminv_congr hi (Or.inl rfl) (by simp)
  | emitArgs ns ev b cb bld h hb =>
    refine ⟨?_, by simp, by simpa using hi.queued⟩
    intro ns' cb' b' he
    simp only [Option.some.injEq, Emit.args.injEq] at he
    obtain ⟨rfl, rfl, rfl⟩ := he
    exact ⟨ev, b, bld, [], hb, rfl⟩
  | emitArg ns cb bld v h =>
    refine ⟨?_, by simp, by simpa using hi.queued⟩
    intro ns' cb' b' he
    simp only [Option.some.injEq, Emit.args.injEq] at he
    obtain ⟨rfl, rfl, rfl⟩ := he
    obtain ⟨ev, bin, b0, vs, g1, g2⟩ := hi.args _ _ _ h
    exact ⟨ev, bin, b0, vs ++ [v], g1, by rw [adds_snoc, g2]⟩
  | emitSend ns bld g h hf =>
    refine ⟨by simp, ?_, by simpa using hi.queued⟩
    intro ns' cb' g' he
    simp only [Option.some.injEq, Emit.sending.injEq] at he
    obtain ⟨rfl, rfl, rfl⟩ := he
    obtain ⟨ev, bin, b0, vs, g1, g2⟩ := hi.args _ _ _ h
    exact ⟨ev, bin, b0, vs, g1, by rw [← g2, hf]⟩
  | emitRegister ns id cb bld g h hf _ =>
    refine ⟨by simp, ?_, by simpa using hi.queued⟩
    intro ns' cb' g' he
    simp only [Option.some.injEq, Emit.sending.injEq] at he
    obtain ⟨rfl, rfl, rfl⟩ := he
    obtain ⟨ev, bin, b0, vs, g1, g2⟩ := hi.args _ _ _ h
    exact ⟨ev, bin, b0, vs, g1, by rw [← g2, hf]⟩
  | emitStart ns ev _ _ => exact eminv_congr hi (Or.inr (Or.inr ⟨_, _, _, _, rfl⟩)) (by simp)
  | emitBinary ns ev b b' cb _ => exact eminv_congr hi (Or.inr (Or.inr ⟨_, _, _, _, rfl⟩)) (by simp)
  | emitCallback ns ev b cb _ => exact eminv_congr hi (Or.inr (Or.inr ⟨_, _, _, _, rfl⟩)) (by simp)
  | emitPanic _ => exact eminv_congr hi (Or.inr (Or.inl rfl)) (by simp)
  | emitDrop _ => exact eminv_congr hi (Or.inr (Or.inl rfl)) (by simp)
  | emitElsewhere _ _ _ _ _ => exact eminv_congr hi (Or.inr (Or.inl rfl)) (by simp)
  | _ => exact eminv_congr hi (Or.inl rfl) (by simp)

theorem eminv {cfg : RCfg} {acts : List Act} {s : Sys} {tr : List Ev} (h : Runs cfg acts s tr) : EmInv tr s :=
  exec_induct (P := EmInv) (by constructor <;> simp [Sys.init]) (fun _ _ _ _ hi ht => eminv_trans hi ht) acts s tr h

@[simp] theorem handed_append (a b : List Ev) : handed (a ++ b) = handed a ++ handed b := by simp [handed]
@[simp] theorem replied_append (a b : List Ev) : replied (a ++ b) = replied a ++ replied b := by simp [replied]

/-- Reply handles. -/
structure HandInv (tr : List Ev) (s : Sys) : Prop where
  count : ∀ h, (replied tr).count h + s.handles.count h ≤ (handed tr).count h
  queued : ∀ h g, .enqueued (.reply h) g ∈ tr → ReplyGroup h g

theorem handinv_congr {tr evs : List Ev} {s s' : Sys} (hi : HandInv tr s)
    (hc : ∀ h, (replied evs).count h + s'.handles.count h ≤ (handed evs).count h + s.handles.count h)
    (hq : ∀ h g, .enqueued (.reply h) g ∉ evs) : HandInv (tr ++ evs) s' := by
  constructor
  · intro h
    have h1 := hi.count h
    have h2 := hc h
    simp only [replied_append, handed_append, List.count_append]
    omega
  · intro h g hm
    rcases List.mem_append.1 hm with hm | hm
    · exact hi.queued _ _ hm
    · exact absurd hm (hq _ _)

theorem count_erase_le (l : List AckHandle) (h x : AckHandle) : (l.erase h).count x ≤ l.count x :=
  List.Sublist.count_le x List.erase_sublist

theorem count_erase_mem {l : List AckHandle} {h : AckHandle} (hm : h ∈ l) (x : AckHandle) :
    [h].count x + (l.erase h).count x ≤ l.count x := by
  have := (List.perm_cons_erase hm).count_eq x
  rw [this, ← List.count_append]
  exact Nat.le_refl _

theorem handinv_trans {cfg : RCfg} {tr : List Ev} {s s' : Sys} {evs : List Ev} (hi : HandInv tr s)
    (ht : Trans cfg s s' evs) : HandInv (tr ++ evs) s' := by
  have key : ∀ h, (replied []).count h + s.handles.count h ≤ (handed []).count h + s.handles.count h :=
    fun h => Nat.le_refl _
  cases ht with
  | sendOk src g s0 evs hs hl' hc =>
    cases hs with
    | reply h b args g hm hf =>
      constructor
      · intro x
        have h1 := hi.count x
        have h2 := count_erase_mem hm x
        simp only [List.nil_append, replied_append, handed_append, List.count_append]
        show _ + [h].count x + (s.handles.erase h).count x ≤ _ + 0
        omega
      · intro h' g' hm'
        simp only [List.nil_append, List.mem_append, List.mem_singleton, Ev.enqueued.injEq, Src.reply.injEq] at hm'
        rcases hm' with hm' | ⟨rfl, rfl⟩
        · exact hi.queued _ _ hm'
        · exact ⟨b, args, hf⟩
    | _ => exact handinv_congr hi key (by simp)
  | sendFail src g s0 evs hs hc =>
    cases hs with
    | reply h b args g hm hf =>
      refine handinv_congr hi ?_ (by simp)
      intro x
      have h2 := count_erase_mem hm x
      show [h].count x + (s.handles.erase h).count x ≤ 0 + _
      omega
    | _ => exact handinv_congr hi key (by simp)
  | recvEvent w st ns name cb A ack _ _ _ =>
    cases ack with
    | none => exact handinv_congr hi key (by simp)
    | some h =>
      refine handinv_congr hi ?_ (by simp)
      intro x
      show 0 + (s.handles ++ [h]).count x ≤ [h].count x + s.handles.count x
      rw [List.count_append]
      omega
  | recvEventPanic w st ns name cb A ack _ _ _ =>
    cases ack with
    | none => exact handinv_congr hi key (by simp)
    | some h =>
      refine handinv_congr hi ?_ (by simp)
      intro x
      show 0 + (s.handles ++ [h]).count x ≤ [h].count x + s.handles.count x
      rw [List.count_append]
      omega
  | replyPanic h hm =>
    refine handinv_congr hi ?_ (by simp)
    intro x
    have := count_erase_le s.handles h x
    show 0 + (s.handles.erase h).count x ≤ 0 + _
    omega
  | dropHandle h hm =>
    refine handinv_congr hi ?_ (by simp)
    intro x
    have := count_erase_le s.handles h x
    show 0 + (s.handles.erase h).count x ≤ 0 + _
    omega
  | _ => exact handinv_congr hi key (by simp)

theorem handinv {cfg : RCfg} {acts : List Act} {s : Sys} {tr : List Ev} (h : Runs cfg acts s tr) : HandInv tr s :=
  exec_induct (P := HandInv) (by constructor <;> simp [Sys.init, replied, handed])
    (fun _ _ _ _ hi ht => handinv_trans hi ht) acts s tr h

/-- The receiver state comes from the messages received so far. -/
def XInv (cfg : RCfg) (tr : List Ev) (s : Sys) : Prop :=
  (s.task.live = true ∨ s.task = .unborn) →
  ∃ l : List (Callbacks × Ws), s.rx = after cfg RState.new l ∧ l.map Prod.snd = inbox tr ∧
    ∀ o ∈ outs cfg RState.new l, o.res = .ok ()

theorem xinv_congr {cfg : RCfg} {tr evs : List Ev} {s s' : Sys} (hi : XInv cfg tr s) (h1 : inbox evs = [])
    (h2 : s'.rx = s.rx) (h3 : (s'.task.live = true ∨ s'.task = .unborn) → (s.task.live = true ∨ s.task = .unborn)) :
    XInv cfg (tr ++ evs) s' := by
  intro hl
  rw [inbox_append, h1, List.append_nil, h2]
  exact hi (h3 hl)

theorem xinv_dead {cfg : RCfg} {tr evs : List Ev} {s' : Sys} (h : (∃ r, s'.task = .done r) ∨ s'.task = .dropped) :
    XInv cfg (tr ++ evs) s' := by
  intro hl
  rcases h with ⟨r, h⟩ | h <;> rw [h] at hl <;> simp [Task.live] at hl

theorem xinv_recv {cfg : RCfg} {tr evs : List Ev} {s s' : Sys} {w : Ws} {effs : List Eff} {reg : Callbacks} {st : RState}
    (hi : XInv cfg tr s) (hr : s.task.reads) (h1 : inbox evs = [w])
    (h2 : processWs cfg s.rx s.reg w = ⟨st, reg, effs, .ok ()⟩) (h3 : s'.rx = st) : XInv cfg (tr ++ evs) s' := by
  intro _
  obtain ⟨l, k1, k2, k3⟩ := hi (Or.inl hr.live)
  refine ⟨l ++ [(s.reg, w)], ?_, by rw [inbox_append, h1, List.map_append, k2]; rfl, ?_⟩
  · rw [after_append, ← k1]
    show _ = (processWs cfg s.rx s.reg w).st
    rw [h2, h3]
  · intro o ho
    rw [outs_append] at ho
    rcases List.mem_append.1 ho with ho | ho
    · exact k3 o ho
    · rw [← k1] at ho
      simp only [outs, List.mem_singleton] at ho
      rw [ho, h2]

theorem xinv_trans {cfg : RCfg} {tr : List Ev} {s s' : Sys} {evs : List Ev} (hp : PInv s) (hi : XInv cfg tr s)
    (ht : Trans cfg s s' evs) : XInv cfg (tr ++ evs) s' := by
  cases ht with
  | handshakeOk h => exact xinv_congr hi rfl rfl (fun _ => Or.inr (hp.start h).1)
  | sendOk src g s0 evs hs hl' hc =>
    cases hs with
    | pong w st hr _ h => exact xinv_recv hi hr rfl h rfl
    | _ => exact xinv_congr hi rfl rfl (fun h => h)
  | sendFail src g s0 evs hs hc =>
    cases hs with
    | pong w st hr _ h => exact xinv_recv hi hr rfl h rfl
    | _ => exact xinv_congr hi rfl rfl (fun h => h)
  | recvQuiet w st hr h => exact xinv_recv hi hr rfl h rfl
  | recvOpened w st o hr h => exact xinv_recv hi hr rfl h rfl
  | recvSecond w st o hr h => exact xinv_recv hi hr rfl h rfl
  | recvEvent w st ns name cb A ack hr _ h => cases ack <;> exact xinv_recv hi hr rfl h rfl
  | recvAck w st ns id cb A hr _ h => exact xinv_recv hi hr rfl h rfl
  | dequeue g q h _ => exact xinv_congr hi rfl rfl (fun _ => Or.inl (by rw [h]; rfl))
  | write w rest h => exact xinv_congr hi rfl rfl (fun _ => Or.inl (by rw [h]; rfl))
  | endGroup h => exact xinv_congr hi rfl rfl (fun _ => Or.inl (by rw [h]; rfl))
  | seeClose h _ => exact xinv_congr hi rfl rfl (fun _ => Or.inl (by rw [h]; rfl))
  | _ =>
    first
      | exact xinv_congr hi rfl rfl (fun h => h)
      | exact xinv_dead (Or.inl ⟨_, rfl⟩)
      | exact xinv_dead (Or.inr rfl)

theorem xinv_init (cfg : RCfg) : XInv cfg [] Sys.init := fun _ => ⟨[], rfl, rfl, by simp [outs]⟩

theorem payloads_inbox {l : List (Callbacks × Ws)} {tr : List Ev} (h : l.map Prod.snd = inbox tr) :
    payloads l = arrived tr := by
  rw [arrived, ← h, List.filterMap_map]
  rfl

/-- The message behind an effect of the receiver. -/
theorem eff_source {cfg : RCfg} {acts : List Act} {s : Sys} {tr : List Ev} (h : Runs cfg acts s tr) :
    ∀ t1 e t2, tr = t1 ++ e :: t2 → ∀ x, e = .eff x → ∃ (t0 : List Ev) (w : Ws) (l : List (Callbacks × Ws)) (reg : Callbacks),
      t1 = t0 ++ [.received w] ∧ l.map Prod.snd = inbox t0 ∧ (∀ o ∈ outs cfg RState.new l, o.res = .ok ()) ∧
      GInv t0 { Sys.init with reg := reg } ∧ x ∈ (processWs cfg (after cfg RState.new l) reg w).effs := by
  refine before_induct (I := fun tr s => PInv s ∧ XInv cfg tr s ∧ GInv tr s) ⟨pinv_init, xinv_init cfg, ginv_init⟩ ?_ ?_ h
  · intro tr s s' evs ⟨h1, h2, h3⟩ ht
    exact ⟨pinv_trans h1 ht, xinv_trans h1 h2 ht, ginv_trans h3 ht⟩
  · intro tr s s' evs ⟨h1, h2, h3⟩ ht a e b heq x hx
    subst hx
    have key : ∀ {w : Ws} {e : Eff} {post : List Ev}, s.task.reads → e ∈ (processWs cfg s.rx s.reg w).effs →
        (∀ y, .eff y ∉ post) → evs = .received w :: .eff e :: post →
        ∃ (t0 : List Ev) (w : Ws) (l : List (Callbacks × Ws)) (reg : Callbacks),
          tr ++ a = t0 ++ [.received w] ∧ l.map Prod.snd = inbox t0 ∧ (∀ o ∈ outs cfg RState.new l, o.res = .ok ()) ∧
          GInv t0 { Sys.init with reg := reg } ∧ x ∈ (processWs cfg (after cfg RState.new l) reg w).effs := by
      intro w e post hr he hpost hevs
      obtain ⟨l, k1, k2, k3⟩ := h2 (Or.inl hr.live)
      rw [hevs] at heq
      cases a with
      | nil => simp at heq
      | cons a0 a =>
        simp only [List.cons_append, List.cons.injEq] at heq
        obtain ⟨rfl, heq⟩ := heq
        cases a with
        | nil =>
          simp only [List.nil_append, List.cons.injEq, Ev.eff.injEq] at heq
          obtain ⟨rfl, rfl⟩ := heq
          exact ⟨tr, w, l, s.reg, rfl, k2, k3, ⟨h3.ev, h3.fb, h3.ak⟩, by rw [← k1]; exact he⟩
        | cons a1 a =>
          simp only [List.cons_append, List.cons.injEq] at heq
          exact absurd (by rw [heq.2]; simp) (hpost x)
    have none : (∀ y, .eff y ∉ evs) → False := fun hn => hn x (by rw [heq]; simp)
    cases ht with
    | sendOk src g s0 evs hs hl' hc =>
      cases hs with
      | pong w st hr _ h => exact key hr (by rw [h]; simp) (post := [_]) (by simp) rfl
      | _ => exact (none (by simp)).elim
    | sendFail src g s0 evs hs hc =>
      cases hs with
      | pong w st hr _ h => exact key hr (by rw [h]; simp) (post := [_]) (by simp) rfl
      | _ => exact (none (by simp)).elim
    | recvOpened w st o hr h => exact key hr (by rw [h]; simp) (post := []) (by simp) rfl
    | recvSecond w st o hr h => exact key hr (by rw [h]; simp) (post := []) (by simp) rfl
    | recvEvent w st ns name cb A ack hr _ h => exact key hr (by rw [h]; simp) (post := []) (by simp) rfl
    | recvEventPanic w st ns name cb A ack hr _ h => exact key hr (by rw [h]; simp) (post := [_]) (by simp) rfl
    | recvAck w st ns id cb A hr _ h => exact key hr (by rw [h]; simp) (post := []) (by simp) rfl
    | recvAckPanic w st ns id cb A hr _ h => exact key hr (by rw [h]; simp) (post := [_]) (by simp) rfl
    | _ => exact (none (by simp)).elim

end SIO
