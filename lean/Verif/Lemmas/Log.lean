import Verif.Spec.Log
import Verif.Props.ErrorText
import Verif.Props.ClientExact
import Verif.Props.Display
/-
The lines of the log, and the steps of the client they belong to.
-/
namespace SIO
open SIO.Spec

/-! ### Heads of lines -/

theorem isPrefixOf_app (a b : Str) : a.isPrefixOf (a ++ b) = true := by
  rw [List.isPrefixOf_iff_prefix]; exact List.prefix_append a b

theorem saidAfter_self (words x : Str) (l : Level) : saidAfter words ⟨l, words ++ x⟩ = some x := by
  simp [saidAfter, isPrefixOf_app]

theorem saidAfter_other {words head x : Str} {l : Level} (h : head.take words.length ≠ words.take head.length) :
    saidAfter words ⟨l, head ++ x⟩ = none := by
  unfold saidAfter
  rw [if_neg]
  intro hp
  rw [List.isPrefixOf_iff_prefix] at hp
  obtain ⟨y, hy⟩ := hp
  exact h (heads hy.symm)

theorem saidAfter_lit {words head : Str} {l : Level} (h : head.take words.length ≠ words.take head.length) :
    saidAfter words ⟨l, head⟩ = none := by
  have := saidAfter_other (x := []) (l := l) h
  rwa [List.append_nil] at this

/-- The line begins with one of these. -/
def Begins (hs : List Str) (l : Line) : Prop := ∃ h ∈ hs, ∃ x, l.text = h ++ x

theorem Begins.silent {hs : List Str} {l : Line} {words : Str} (h : Begins hs l)
    (hd : ∀ h ∈ hs, h.take words.length ≠ words.take h.length) : saidAfter words l = none := by
  obtain ⟨a, ha, x, hx⟩ := h
  obtain ⟨v, t⟩ := l
  simp only at hx
  subst hx
  exact saidAfter_other (hd a ha)

theorem says_nil {hs : List Str} {ls : List Line} {words : Str} (h : ∀ l ∈ ls, Begins hs l)
    (hd : ∀ h ∈ hs, h.take words.length ≠ words.take h.length) : says words ls = [] := by
  unfold says
  rw [List.filterMap_eq_nil_iff]
  exact fun l hl => (h l hl).silent hd

@[simp] theorem says_append (words : Str) (a b : List Line) : says words (a ++ b) = says words a ++ says words b := by
  simp [says]

theorem says_cons (words : Str) (l : Line) (b : List Line) :
    says words (l :: b) = (saidAfter words l).toList ++ says words b := by
  simp only [says, List.filterMap_cons]
  split <;> simp [*]

theorem begins_lit {hs : List Str} {h : Str} {v : Level} (hm : h ∈ hs) : Begins hs ⟨v, h⟩ := ⟨h, hm, [], by simp⟩
theorem begins_app {hs : List Str} {h x : Str} {v : Level} (hm : h ∈ hs) : Begins hs ⟨v, h ++ x⟩ := ⟨h, hm, x, rfl⟩

def headsPacket : List Str :=
  ["Received socket packet: ".toList, "Received connect for ".toList, "Received disconnect for ".toList]

def headsEngine : List Str :=
  ["Received open engine packet: ".toList, "Received second open engine packet: ".toList, "Received close engine packet".toList,
   "Received engine ping packet".toList, "Received message engine packet: ".toList, "Closed with close frame ".toList] ++ headsPacket

theorem packetLines_heads (cfg : RCfg) (pk : Packet) : ∀ l ∈ packetLines cfg pk, Begins headsPacket l := by
  intro l hl
  unfold packetLines at hl
  split at hl
  · rcases List.mem_cons.1 hl with rfl | hl
    · exact begins_app (by simp [headsPacket])
    · split at hl
      · rw [List.mem_singleton] at hl; subst hl; exact begins_app (by simp [headsPacket])
      · rw [List.mem_singleton] at hl; subst hl; exact begins_app (by simp [headsPacket])
      · simp at hl
  · simp at hl

theorem begins_mono {hs ks : List Str} {l : Line} (h : Begins hs l) (hm : ∀ x ∈ hs, x ∈ ks) : Begins ks l := by
  obtain ⟨a, ha, x, hx⟩ := h
  exact ⟨a, hm a ha, x, hx⟩

theorem messageLines_heads (p : Prints) (cfg : RCfg) (st : RState) (m : EMsg) : ∀ l ∈ messageLines p cfg st m, Begins headsEngine l := by
  intro l hl
  unfold messageLines at hl
  split at hl
  · rcases List.mem_cons.1 hl with rfl | hl
    · exact begins_app (by simp [headsEngine])
    · split at hl
      · exact begins_mono (packetLines_heads _ _ l hl) (fun x hx => List.mem_append_right _ hx)
      · simp at hl
  · simp at hl

theorem engineLines_heads (p : Prints) (cfg : RCfg) (st : RState) (w : Ws) : ∀ l ∈ engineLines p cfg st w, Begins headsEngine l := by
  intro l hl
  unfold engineLines at hl
  split at hl
  · rcases List.mem_cons.1 hl with rfl | hl
    · exact begins_app (by simp [headsEngine])
    · split at hl
      · simp at hl
      · rw [List.mem_singleton] at hl; subst hl; exact begins_app (by simp [headsEngine])
  · rw [List.mem_singleton] at hl; subst hl; exact begins_lit (by simp [headsEngine])
  · rw [List.mem_singleton] at hl; subst hl; exact begins_lit (by simp [headsEngine])
  · rw [List.mem_singleton] at hl; subst hl; exact begins_lit (by simp [headsEngine])
  · exact messageLines_heads p cfg st _ l hl
  · simp at hl

/-- The lines of a websocket message after the first. -/
def wsMore (p : Prints) (cfg : RCfg) (st : RState) : Ws → List Line
  | .close => [⟨.debug, "Closed with close frame ".toList ++ p.close⟩]
  | .ping _ => []
  | .pong _ => []
  | .text t => engineLines p cfg st (.text t)
  | .binary b => engineLines p cfg st (.binary b)

theorem wsLines_eq (p : Prints) (cfg : RCfg) (st : RState) (w : Ws) :
    wsLines p cfg st w = ⟨.trace, "Received WebSocket packet: ".toList ++ dbgWs p w⟩ :: wsMore p cfg st w := by
  cases w <;> rfl

theorem wsMore_heads (p : Prints) (cfg : RCfg) (st : RState) (w : Ws) : ∀ l ∈ wsMore p cfg st w, Begins headsEngine l := by
  intro l hl
  cases w with
  | close => simp only [wsMore, List.mem_singleton] at hl; subst hl; exact begins_app (by simp [headsEngine])
  | ping => simp [wsMore] at hl
  | pong => simp [wsMore] at hl
  | text t => exact engineLines_heads p cfg st _ l hl
  | binary t => exact engineLines_heads p cfg st _ l hl

/-! ### What the steps show -/

/-- The task is over. -/
def Task.over : Task → Bool
  | .done _ => true
  | .dropped => true
  | _ => false

/-- What is still to be written. -/
def pend : Task → List Ws
  | .writing r => r
  | _ => []

/-- Nothing received, taken, written. -/
def Still (evs : List Ev) : Prop := inbox evs = [] ∧ written evs = [] ∧ taken evs = [] ∧ .closeSeen ∉ evs

theorem Still.append {a b : List Ev} (ha : Still a) (hb : Still b) : Still (a ++ b) := by
  obtain ⟨h1, h2, h3, h4⟩ := ha
  obtain ⟨k1, k2, k3, k4⟩ := hb
  exact ⟨by simp [*], by simp [*], by simp [*], by simp [*]⟩

theorem still_enqueue (s : Sys) (src : Src) (g : List Ws) : Still (s.enqueue src g).2 := by
  unfold Sys.enqueue
  split <;> exact ⟨rfl, rfl, rfl, by simp⟩

theorem still_effects (effs : List Eff) (s : Sys) : Still (s.effects effs).2 ∧ (s.effects effs).1.task = s.task := by
  induction effs generalizing s with
  | nil => exact ⟨⟨rfl, rfl, rfl, by simp [Sys.effects]⟩, rfl⟩
  | cons x effs ih =>
    simp only [Sys.effects]
    have hx : Still (s.effect x).2 ∧ (s.effect x).1.task = s.task := by
      cases x with
      | enqueue g =>
        simp only [Sys.effect]
        refine ⟨Still.append (a := [.eff (.enqueue g)]) ⟨rfl, rfl, rfl, by simp⟩ (still_enqueue _ _ _), ?_⟩
        obtain ⟨q, hq⟩ := enqueue_frame s .pong g
        rw [hq]
      | event ns name cb A ack => cases ack <;> exact ⟨⟨rfl, rfl, rfl, by simp [Sys.effect]⟩, rfl⟩
      | _ => exact ⟨⟨rfl, rfl, rfl, by simp [Sys.effect]⟩, rfl⟩
    refine ⟨hx.1.append (ih _).1, ?_⟩
    rw [(ih _).2, hx.2]

theorem effects_noEnd (effs : List Eff) (s : Sys) (r : Res CErr Unit) : .taskEnd r ∉ (s.effects effs).2 := by
  induction effs generalizing s with
  | nil => simp [Sys.effects]
  | cons x effs ih =>
    simp only [Sys.effects, List.mem_append, not_or]
    refine ⟨?_, ih _⟩
    cases x with
    | enqueue g => simp only [Sys.effect, Sys.enqueue]; split <;> simp
    | event ns name cb A ack => cases ack <;> simp [Sys.effect]
    | _ => simp [Sys.effect]

theorem recv_noEnd (cfg : RCfg) (s : Sys) (w : Ws) (p : Bool) : .taskEnd (.ok ()) ∉ (s.recv cfg w p).2 := by
  have h := fun r => effects_noEnd (processWs cfg s.rx s.reg w).effs
    { s with rx := (processWs cfg s.rx s.reg w).st, reg := (processWs cfg s.rx s.reg w).reg } r
  unfold Sys.recv
  simp only
  split
  · simp [h, Sys.finishTask]
  · split <;> simp [h, Sys.finishTask]

/-- The task ends well only at the end of the stream. -/
theorem step_endOk {cfg : RCfg} {s s' : Sys} {a : Act} {evs : List Ev} (h : step cfg s a = some (s', evs))
    (he : .taskEnd (.ok ()) ∈ evs) : a = .streamEnd := by
  cases a with
  | streamEnd => rfl
  | recv w p =>
    exfalso
    simp only [step] at h
    split at h
    · simp only [Option.some.injEq] at h; exact recv_noEnd cfg s w p (by rw [h]; exact he)
    · simp only [Option.some.injEq] at h; exact recv_noEnd cfg s w p (by rw [h]; exact he)
    · simp at h
  | rawSend g => simp only [step, Sys.enqueue] at h; grind
  | emitEnqueue => simp only [step, Sys.enqueue] at h; grind
  | reply x b args => simp only [step, Sys.enqueue] at h; grind
  | _ =>
    exfalso
    simp only [step, Sys.finishTask, Sys.endTask, Sys.failConnect, Sys.closeOver] at h
    grind

theorem recv_logs (cfg : RCfg) (s : Sys) (w : Ws) (p : Bool) :
    ∃ rest, (s.recv cfg w p).2 = .received w :: rest ∧ Still rest ∧
      ((s.recv cfg w p).1.task = s.task ∨ (s.recv cfg w p).1.task.over = true) := by
  obtain ⟨h1, h2⟩ := still_effects (processWs cfg s.rx s.reg w).effs
    { s with rx := (processWs cfg s.rx s.reg w).st, reg := (processWs cfg s.rx s.reg w).reg }
  unfold Sys.recv
  simp only
  have he : ∀ r, Still [.taskEnd r] := fun r => ⟨rfl, rfl, rfl, by simp⟩
  split
  · exact ⟨_, rfl, h1.append (he _), Or.inr rfl⟩
  · split
    · exact ⟨_, rfl, h1, Or.inl h2⟩
    · exact ⟨_, rfl, h1.append (he _), Or.inr rfl⟩
    · exact ⟨_, rfl, h1.append (he _), Or.inr rfl⟩

/-- What an action shows of reading and writing. -/
def ActShows (s s' : Sys) (evs : List Ev) : Act → Prop
  | .recv w _ => s.task.reads ∧ (∃ rest, evs = .received w :: rest ∧ Still rest) ∧ (s'.task = s.task ∨ s'.task.over = true)
  | .dequeue => s.task = .running ∧ ((∃ g q, s.queue = g :: q ∧ evs = [.dequeued g] ∧ s'.task = .writing g) ∨
      (s.queue = [] ∧ Still evs ∧ s'.task.over = true))
  | .write => ∃ w rest, s.task = .writing (w :: rest) ∧ evs = [.wrote w] ∧ s'.task = .writing rest
  | .seeClose => s.task = .running ∧ evs = [.closeSeen] ∧ s'.task = .closing
  | .openReady => Still evs ∧ s'.task = s.task
  | .handshakeOk => Still evs ∧ s.phase = .handshake ∧ s'.task = .running
  | .endGroup => Still evs ∧ s.task = .writing [] ∧ s'.task = .running
  | .streamErr _ => Still evs ∧ s.task.reads ∧ s'.task.over = true
  | .streamEnd => Still evs ∧ s.task.reads ∧ s'.task.over = true
  | .writeFail _ => Still evs ∧ (∃ w rest, s.task = .writing (w :: rest)) ∧ s'.task.over = true
  | .dropTask => Still evs ∧ s.task.live = true ∧ s'.task.over = true
  | _ => Still evs ∧ s'.task = s.task

set_option maxHeartbeats 1000000 in
theorem step_shows {cfg : RCfg} {s s' : Sys} {a : Act} {evs : List Ev} (h : step cfg s a = some (s', evs)) :
    ActShows s s' evs a := by
  have nil : Still [] := ⟨rfl, rfl, rfl, by simp⟩
  cases a with
  | recv w p =>
    simp only [step] at h
    have key : s.task.reads → s.recv cfg w p = (s', evs) → ActShows s s' evs (.recv w p) := by
      intro hr he
      obtain ⟨rest, h1, h2, h3⟩ := recv_logs cfg s w p
      rw [he] at h1 h3
      exact ⟨hr, ⟨rest, h1, h2⟩, h3⟩
    split at h
    · exact key (Or.inl ‹_›) (by simpa using h)
    · exact key (Or.inr ‹_›) (by simpa using h)
    · simp at h
  | rawSend g =>
    simp only [step] at h
    split at h
    · simp only [Option.some.injEq] at h
      obtain ⟨q, hq⟩ := enqueue_frame s .raw g
      have := still_enqueue s .raw g
      rw [h] at hq this
      exact ⟨this, by simp only at hq; rw [hq]⟩
    · simp at h
  | emitEnqueue =>
    simp only [step] at h
    split at h
    · rename_i ns cb g _
      split at h
      · simp only [Option.some.injEq] at h
        obtain ⟨q, hq⟩ := enqueue_frame { s with emit := none } (.emit ns cb) g
        have := still_enqueue { s with emit := none } (.emit ns cb) g
        rw [h] at hq this
        exact ⟨this, by simp only at hq; rw [hq]⟩
      · simp only [Option.some.injEq, Prod.mk.injEq] at h
        obtain ⟨rfl, rfl⟩ := h
        exact ⟨⟨rfl, rfl, rfl, by simp⟩, rfl⟩
    · simp at h
  | reply x b args =>
    simp only [step] at h
    split at h
    · split at h
      · simp only [Option.some.injEq, Prod.mk.injEq] at h
        obtain ⟨rfl, rfl⟩ := h
        exact ⟨⟨rfl, rfl, rfl, by simp⟩, rfl⟩
      · rename_i g _
        simp only [Option.some.injEq] at h
        obtain ⟨q, hq⟩ := enqueue_frame { s with handles := s.handles.erase x, senders := s.senders - 1 } (.reply x) g
        have := still_enqueue { s with handles := s.handles.erase x, senders := s.senders - 1 } (.reply x) g
        rw [h] at hq this
        exact ⟨this, by simp only at hq; rw [hq]⟩
    · simp at h
  | _ =>
    simp only [step, Sys.finishTask, Sys.endTask, Sys.failConnect, Sys.closeOver] at h
    repeat' split at h
    all_goals first
      | (simp at h; done)
      | (simp only [Option.some.injEq, Prod.mk.injEq] at h
         obtain ⟨rfl, rfl⟩ := h
         simp [ActShows, Still, inbox, written, taken, Task.over, Task.reads, *]; done)
      | skip

end SIO
