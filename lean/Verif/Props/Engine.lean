import Verif.Spec.Engine
import Verif.Lemmas.Decoded
/-
C10, C11, C12: the engine decoder over message histories.
-/
namespace SIO
open Spec

/-- Decoder state after a history. -/
def stateAfter (st : EState) : List Ws → EState
  | [] => st
  | w :: ws => stateAfter (decode st w).1 ws

theorem results_append (st : EState) (a b : List Ws) :
    results st (a ++ b) = results st a ++ results (stateAfter st a) b := by
  induction a generalizing st with
  | nil => rfl
  | cons w a ih => simp [results, stateAfter, ih]

theorem results_length (st : EState) (a : List Ws) : (results st a).length = a.length := by
  induction a generalizing st with
  | nil => rfl
  | cons w a ih => simp [results, ih]

theorem results_getElem (st : EState) (ws : List Ws) (i : Nat) (r : Res EErr EPacket)
    (h : (results st ws)[i]? = some r) :
    ∃ a w b, ws = a ++ w :: b ∧ a.length = i ∧ (decode (stateAfter st a) w).2 = r := by
  induction ws generalizing st i with
  | nil => simp [results] at h
  | cons w ws ih =>
    cases i with
    | zero =>
      simp [results] at h
      exact ⟨[], w, ws, rfl, rfl, h⟩
    | succ i =>
      simp [results] at h
      obtain ⟨a, w', b, rfl, hl, hr⟩ := ih _ _ h
      exact ⟨w :: a, w', b, rfl, by simp [hl], hr⟩

theorem results_at (st : EState) (a b : List Ws) (w : Ws) :
    (results st (a ++ w :: b))[a.length]? = some (decode (stateAfter st a) w).2 := by
  rw [results_append, List.getElem?_append_right (by simp [results_length])]
  simp [results_length, results]

/-- How one message changes the state. -/
theorem decode_state (st : EState) (w : Ws) :
    (∃ o, (decode st w).2 = .ok (.opened o) ∧ st = .initial ∧ (decode st w).1 = .active) ∨
    ((decode st w).2 = .ok .close ∧ st = .active ∧ (decode st w).1 = .closed) ∨
    ((∀ o, (decode st w).2 ≠ .ok (.opened o)) ∧ (decode st w).2 ≠ .ok .close ∧ (decode st w).1 = st) := by
  unfold decode
  by_cases hcl : st = .closed
  · simp [hcl]
  · rw [if_neg hcl]
    cases w with
    | ping b => simp
    | pong b => simp
    | close => simp
    | binary b =>
      right; right
      simp only [decodeBinary]
      split
      · simp
      · split
        · simp
        · split <;> simp
    | text t =>
      simp only [decodeText]
      cases t with
      | nil => simp
      | cons c r =>
        simp only
        split
        · split
          · simp
          · rename_i hst
            simp at hst
            cases hp : parseOpen r with
            | ok o => left; exact ⟨o, rfl, hst, rfl⟩
            | err e => simp
            | panic => simp
        · split
          · split
            · simp
            · rename_i hst
              right; left
              refine ⟨rfl, ?_, rfl⟩
              cases st <;> simp_all
          · split
            · split <;> simp
            · split
              · split <;> simp
              · split <;> simp

theorem stateAfter_initial {ws : List Ws} {st : EState} (h : stateAfter st ws ≠ .initial) (hs : st = .initial) :
    ∃ j o, j < ws.length ∧ (results st ws)[j]? = some (.ok (.opened o)) := by
  induction ws generalizing st with
  | nil => exact absurd hs h
  | cons w ws ih =>
    rcases decode_state st w with ⟨o, ho, _⟩ | ⟨_, ha, _⟩ | ⟨_, _, he⟩
    · exact ⟨0, o, by simp, by simp [results, ho]⟩
    · simp [ha] at hs
    · obtain ⟨j, o, hj, hr⟩ := ih (st := (decode st w).1) h (he.trans hs)
      exact ⟨j + 1, o, by simpa using hj, by simpa [results] using hr⟩

/-- C10, what holds: before an open packet was decoded, the decoder hands out nothing but
text messages.  Missing for the full claim: text messages are handed out before the open
packet as well (`C10_counterexample`). -/
theorem C10_partial (ws : List Ws) (i : Nat) (p : EPacket) (h : DecodedAt ws i p)
    (hb : ¬ OpenBefore ws i) : (∃ o, p = .opened o) ∨ ∃ t, p = .message (.text t) := by
  obtain ⟨a, w, b, rfl, rfl, hr⟩ := results_getElem _ _ _ _ h
  have hst : stateAfter EState.new a = .initial := by
    rcases Classical.em (stateAfter EState.new a = .initial) with h | h
    · exact h
    · obtain ⟨j, o, hj, hjr⟩ := stateAfter_initial h rfl
      refine absurd ⟨j, o, hj, ?_⟩ hb
      unfold DecodedAt connResults
      rw [results_append, List.getElem?_append_left (by simpa [results_length] using hj)]
      exact hjr
  rw [hst] at hr
  unfold decode at hr
  rw [if_neg (by simp)] at hr
  cases w with
  | ping b => simp at hr
  | pong b => simp at hr
  | close => simp at hr
  | binary b => simp [decodeBinary] at hr
  | text t =>
    simp only [decodeText] at hr
    cases t with
    | nil => simp at hr
    | cons c r =>
      simp only at hr
      split at hr
      · rw [if_neg (by simp)] at hr
        cases hp : parseOpen r with
        | ok o => rw [hp] at hr; simp at hr; exact Or.inl ⟨o, hr.symm⟩
        | err e => rw [hp] at hr; simp at hr
        | panic => rw [hp] at hr; simp at hr
      · simp only [if_true] at hr
        repeat' (split at hr)
        all_goals first | (exfalso; simp at hr; done) | (simp at hr; exact Or.inr ⟨_, hr.symm⟩)

/-- C10 is false: a text message is handed out on a connection without open packet. -/
theorem C10_counterexample :
    ∃ ws i m, DecodedAt ws i (.message m) ∧ ¬ OpenBefore ws i :=
  ⟨[.text ['4', '2', '[', '"', 'a', '"', ']']], 0, _, rfl, by rintro ⟨j, o, h, _⟩; omega⟩

/-- The exact extent of the defect: before the open packet (and on a connection not
closed) every text message with header `4` is handed out. -/
theorem C10_extent (a b : List Ws) (r : Str) (h : stateAfter EState.new a ≠ .closed) :
    ∃ t, DecodedAt (a ++ .text ('4' :: r) :: b) a.length (.message (.text t)) ∧ t.deref = some r := by
  refine ⟨OwnedSubslice.new ('4' :: r) 1 (blen ('4' :: r)), ?_, deref_text r⟩
  unfold DecodedAt connResults
  rw [results_at]
  unfold decode
  rw [if_neg h]
  rfl

-- non-vacuity of `C10_partial`: a rejected ping first, then a text message
example : DecodedAt [.text ['2'], .text ['4', 'x']] 1
    (.message (.text ⟨['4', 'x'], 1, 2⟩)) ∧ ¬ OpenBefore [.text ['2'], .text ['4', 'x']] 1 := by
  refine ⟨rfl, ?_⟩
  rintro ⟨j, o, hj, h⟩
  have : j = 0 := by omega
  subst this
  simp [DecodedAt, connResults, results, EState.new, decode, decodeText] at h

theorem results_closed (ws : List Ws) : results .closed ws = ws.map fun _ => .err .messageAfterClose := by
  induction ws with
  | nil => rfl
  | cons w ws ih => simp [results, decode, ih]

/-- C11: after a decoded close packet every message, of whatever type, is rejected. -/
theorem C11_close_final (ws : List Ws) (i j : Nat) (h : DecodedAt ws i .close) (hij : i < j)
    (hj : j < ws.length) : (connResults ws)[j]? = some (.err .messageAfterClose) := by
  obtain ⟨a, w, b, rfl, rfl, hr⟩ := results_getElem _ _ _ _ h
  have hst : (decode (stateAfter EState.new a) w).1 = .closed := by
    rcases decode_state (stateAfter EState.new a) w with ⟨o, ho, _⟩ | ⟨_, _, hc⟩ | ⟨_, hn, _⟩
    · rw [hr] at ho; simp at ho
    · exact hc
    · exact absurd hr hn
  unfold connResults
  rw [results_append, List.getElem?_append_right (by rw [results_length]; omega), results_length]
  simp only [results, hst, results_closed]
  obtain ⟨k, hk⟩ : ∃ k, j - a.length = k + 1 := ⟨j - a.length - 1, by omega⟩
  rw [hk, List.getElem?_cons_succ, List.getElem?_map]
  have : k < b.length := by simp at hj; omega
  rw [List.getElem?_eq_getElem this]
  rfl

/-- An open packet text used in the examples. -/
def openText : Str := "0{\"sid\":\"a\",\"pingTimeout\":1,\"pingInterval\":2}".toList

-- non-vacuity of `C11_close_final`
example : DecodedAt [.text openText, .text ['1'], .binary [4, 1]] 1 .close := by
  unfold DecodedAt
  decide +kernel

theorem stateAfter_not_initial (st : EState) (ws : List Ws) (h : st ≠ .initial) :
    stateAfter st ws ≠ .initial := by
  induction ws generalizing st with
  | nil => exact h
  | cons w ws ih =>
    apply ih
    rcases decode_state st w with ⟨o, _, hi, _⟩ | ⟨_, _, hc⟩ | ⟨_, _, he⟩
    · exact absurd hi h
    · simp [hc]
    · rw [he]; exact h

theorem opened_state {ws : List Ws} {i : Nat} {o : Open} (h : DecodedAt ws i (.opened o)) :
    ∃ a w b, ws = a ++ w :: b ∧ a.length = i ∧ stateAfter EState.new a = .initial ∧
      stateAfter EState.new (a ++ [w]) = .active := by
  obtain ⟨a, w, b, rfl, rfl, hr⟩ := results_getElem _ _ _ _ h
  have hap : ∀ st (l : List Ws), stateAfter st (l ++ [w]) = (decode (stateAfter st l) w).1 := by
    intro st l
    induction l generalizing st with
    | nil => rfl
    | cons x l ih => simp [stateAfter, ih]
  rcases decode_state (stateAfter EState.new a) w with ⟨o', ho, hi, hs⟩ | ⟨hc, _⟩ | ⟨hn, _⟩
  · exact ⟨a, w, b, rfl, rfl, hi, by rw [hap, hs]⟩
  · rw [hr] at hc; simp at hc
  · exact absurd hr (hn o)

/-- C12, first part: at most one open packet is decoded on a connection. -/
theorem C12_one_open (ws : List Ws) (i j : Nat) (o o' : Open) (hi : DecodedAt ws i (.opened o))
    (hj : DecodedAt ws j (.opened o')) : i = j ∧ o = o' := by
  have lt : ∀ i j o o', DecodedAt ws i (.opened o) → DecodedAt ws j (.opened o') → ¬ i < j := by
    intro i j o o' hi hj hlt
    obtain ⟨a, w, b, he, hl, _, hact⟩ := opened_state hi
    obtain ⟨a', w', b', he', hl', hini, _⟩ := opened_state hj
    rw [he] at he'
    have : ∃ c, a' = (a ++ [w]) ++ c := by
      rw [show a ++ w :: b = (a ++ [w]) ++ b by simp] at he'
      rcases List.append_eq_append_iff.1 he' with ⟨c, hc, _⟩ | ⟨c, hc, _⟩
      · exact ⟨c, hc⟩
      · have := congrArg List.length hc
        simp at this
        have : c = [] := by cases c with | nil => rfl | cons _ _ => simp at this; omega
        subst this
        exact ⟨[], by simp [hc]⟩
    obtain ⟨c, rfl⟩ := this
    have hap : ∀ st (l m : List Ws), stateAfter st (l ++ m) = stateAfter (stateAfter st l) m := by
      intro st l m
      induction l generalizing st with
      | nil => rfl
      | cons x l ih => simp [stateAfter, ih]
    rw [hap, hact] at hini
    exact stateAfter_not_initial _ _ (by simp) hini
  have : i = j := by
    have h1 := lt i j o o' hi hj
    have h2 := lt j i o' o hj hi
    omega
  subst this
  refine ⟨rfl, ?_⟩
  unfold DecodedAt at hi hj
  rw [hi] at hj
  simpa using hj

/-- C12, second part: after an open packet every further open packet text is an error. -/
theorem C12_second_open_error (ws : List Ws) (i j : Nat) (o : Open) (r : Str)
    (hi : DecodedAt ws i (.opened o)) (hij : i < j) (hj : ws[j]? = some (.text ('0' :: r))) :
    ∃ e, (connResults ws)[j]? = some (.err e) ∧ (e = .secondOpen ∨ e = .messageAfterClose) := by
  obtain ⟨hlt, hg⟩ := List.getElem?_eq_some_iff.1 hj
  have hsplit : ws = ws.take j ++ ws[j] :: ws.drop (j + 1) := by
    rw [← List.drop_eq_getElem_cons hlt, List.take_append_drop]
  have hlen : (ws.take j).length = j := by simp; omega
  have hres : (connResults ws)[j]? = some (decode (stateAfter EState.new (ws.take j)) ws[j]).2 := by
    have := results_at EState.new (ws.take j) (ws.drop (j + 1)) ws[j]
    rw [← hsplit, hlen] at this
    exact this
  have hni : stateAfter EState.new (ws.take j) ≠ .initial := by
    obtain ⟨a, w, b, he, hl, _, hact⟩ := opened_state hi
    have hap : ∀ st (l m : List Ws), stateAfter st (l ++ m) = stateAfter (stateAfter st l) m := by
      intro st l m
      induction l generalizing st with
      | nil => rfl
      | cons x l ih => simp [stateAfter, ih]
    have : ws.take j = (a ++ [w]) ++ b.take (j - a.length - 1) := by
      rw [he, show a ++ w :: b = (a ++ [w]) ++ b by simp, List.take_append, List.take_of_length_le (by simp; omega)]
      simp
      congr 1
    rw [this, hap, hact]
    exact stateAfter_not_initial _ _ (by simp)
  rw [hres, hg]
  unfold decode
  split
  · exact ⟨_, rfl, Or.inr rfl⟩
  · refine ⟨.secondOpen, ?_, Or.inl rfl⟩
    simp [decodeText, hni]

/-- C12, third part: a message whose decoding fails has no influence on what follows. -/
theorem C12_error_no_effect (a b : List Ws) (w : Ws) (e : EErr)
    (h : (connResults (a ++ w :: b))[a.length]? = some (.err e)) :
    connResults (a ++ w :: b) = connResults a ++ .err e :: (connResults (a ++ b)).drop a.length := by
  unfold connResults at h ⊢
  rw [results_at] at h
  simp at h
  have hst : (decode (stateAfter EState.new a) w).1 = stateAfter EState.new a := by
    rcases decode_state (stateAfter EState.new a) w with ⟨o', ho, _⟩ | ⟨hc, _⟩ | ⟨_, _, hs⟩
    · rw [h] at ho; simp at ho
    · rw [h] at hc; simp at hc
    · exact hs
  rw [results_append, results_append, results, h, hst, List.drop_left' (results_length _ _)]

/-- Decoding never panics. -/
theorem decode_no_panic (st : EState) (w : Ws) : (decode st w).2 ≠ .panic := by
  unfold decode
  split
  · simp
  · cases w with
    | ping b => simp
    | pong b => simp
    | close => simp
    | binary b =>
      simp only [decodeBinary]
      repeat' split
      all_goals simp
    | text t =>
      simp only [decodeText]
      cases t with
      | nil => simp
      | cons c r =>
        simp only
        have : parseOpen r ≠ .panic := by
          unfold parseOpen Res.ofOption
          split <;> simp
        repeat' split
        all_goals first | (simp; done) | (rename_i hp; exact absurd hp this)

-- non-vacuity of the C12 theorems
example : DecodedAt [.text ['2'], .text openText] 1 (.opened ⟨['a'], 1, 2⟩) := by
  unfold DecodedAt
  decide +kernel
example : (connResults ([.text openText] ++ .text ['9'] :: [.text ['3']]))[1]? =
    some (.err (.invalidMessage (.text ['9']))) := by decide +kernel

end SIO
