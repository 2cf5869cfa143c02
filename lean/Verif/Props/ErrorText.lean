import Verif.Spec.ErrorText
import Verif.Lemmas.Strings
/-
C69: the texts of the errors.
-/
namespace SIO
open SIO.Spec

/-! ### Digits -/

theorem natHexF_eq (f g n : Nat) (hf : n ≤ f) (hg : n ≤ g) : natHexF f n = natHexF g n := by
  induction f generalizing g n with
  | zero =>
    have : n = 0 := by omega
    subst this
    cases g <;> simp [natHexF]
  | succ f ih =>
    cases g with
    | zero =>
      have : n = 0 := by omega
      subst this
      simp [natHexF]
    | succ g =>
      simp only [natHexF]
      split
      · rfl
      · rw [ih g (n / 16) (by omega) (by omega)]

theorem natHex_eq (n : Nat) : natHex n = if n < 16 then [hexChar n] else natHex (n / 16) ++ [hexChar (n % 16)] := by
  unfold natHex
  cases n with
  | zero => simp [natHexF]
  | succ n =>
    rw [natHexF]
    split
    · rfl
    · rw [natHexF_eq n ((n + 1) / 16) _ (by omega) (by omega)]

theorem hexChar_inj : ∀ a, a < 16 → ∀ b, b < 16 → hexChar a = hexChar b → a = b := by decide

theorem hexChar_plain : ∀ a, a < 16 → hexChar a ≠ '}' ∧ 32 ≤ (hexChar a).toNat ∧ (hexChar a).toNat < 127 := by decide

theorem natHex_chars (n : Nat) : ∀ c ∈ natHex n, c ≠ '}' ∧ 32 ≤ c.toNat ∧ c.toNat < 127 := by
  induction n using Nat.strongRecOn with
  | _ n ih =>
    rw [natHex_eq]
    split
    · intro c hc
      simp only [List.mem_singleton] at hc
      subst hc
      exact hexChar_plain n ‹_›
    · intro c hc
      rcases List.mem_append.1 hc with hc | hc
      · exact ih (n / 16) (by omega) c hc
      · simp only [List.mem_singleton] at hc
        subst hc
        exact hexChar_plain _ (by omega)

theorem natHex_ne_nil (n : Nat) : natHex n ≠ [] := by
  rw [natHex_eq]; split <;> simp

theorem natHex_inj (n m : Nat) (h : natHex n = natHex m) : n = m := by
  induction n using Nat.strongRecOn generalizing m with
  | _ n ih =>
    rw [natHex_eq n, natHex_eq m] at h
    split at h <;> split at h
    · exact hexChar_inj n ‹_› m ‹_› (by simpa using h)
    · have := congrArg List.length h
      have h0 := natHex_ne_nil (m / 16)
      rw [← List.length_pos_iff] at h0
      simp only [List.length_append, List.length_singleton] at this
      omega
    · have := congrArg List.length h
      have h0 := natHex_ne_nil (n / 16)
      rw [← List.length_pos_iff] at h0
      simp only [List.length_append, List.length_singleton] at this
      omega
    · obtain ⟨h1, h2⟩ := List.append_inj' h rfl
      have h1 := ih (n / 16) (by omega) (m / 16) h1
      have h2 := hexChar_inj _ (by omega) _ (by omega) (by simpa using h2 : hexChar (n % 16) = hexChar (m % 16))
      omega

/-- Two texts of characters of a sort, each before a character not of that sort. -/
theorem span_inj {P : Char → Prop} {a b : Str} (ha : ∀ c ∈ a, P c) (hb : ∀ c ∈ b, P c) {x y : Char} {r s : Str} (hx : ¬ P x)
    (hy : ¬ P y) (h : a ++ x :: r = b ++ y :: s) : a = b ∧ x :: r = y :: s := by
  induction a generalizing b with
  | nil =>
    cases b with
    | nil => exact ⟨rfl, h⟩
    | cons d b =>
      simp only [List.nil_append, List.cons_append, List.cons.injEq] at h
      exact absurd (h.1 ▸ hb d (List.mem_cons_self ..)) hx
  | cons c a ih =>
    cases b with
    | nil =>
      simp only [List.nil_append, List.cons_append, List.cons.injEq] at h
      exact absurd (h.1 ▸ ha c (List.mem_cons_self ..)) hy
    | cons d b =>
      simp only [List.cons_append, List.cons.injEq] at h
      obtain ⟨h1, h2⟩ := ih (fun c hc => ha c (List.mem_cons_of_mem _ hc)) (fun c hc => hb c (List.mem_cons_of_mem _ hc)) h.2
      exact ⟨by rw [h.1, h1], h2⟩

theorem span_nil {P : Char → Prop} {a b : Str} (ha : ∀ c ∈ a, P c) {y : Char} {s : Str}
    (hy : ¬ P y) (h : a = b ++ y :: s) : False := hy (ha y (by rw [h]; simp))

theorem natDec_inj (n m : Nat) (h : natDec n = natDec m) : n = m := by
  rw [← decVal_natDec n, ← decVal_natDec m, h]

/-! ### Strings and bytes -/

/-- How a character is shown. -/
inductive Shown (p : Prints) (c : Char) : Str → Prop where
  | plain : c ≠ '"' → c ≠ '\\' → (32 ≤ c.toNat ∧ c.toNat < 127 ∨ 128 ≤ c.toNat) → Shown p c [c]
  | short (x : Char) : (c, x) ∈ [('\x00', '0'), ('\t', 't'), ('\r', 'r'), ('\n', 'n'), ('"', '"'), ('\\', '\\')] →
      Shown p c ['\\', x]
  | code : Shown p c ('\\' :: 'u' :: '{' :: (natHex c.toNat ++ ['}']))

theorem dbgChar_shown (p : Prints) (c : Char) : Shown p c (dbgChar p c) := by
  unfold dbgChar
  split
  · subst_vars; exact .short '0' (by simp)
  split
  · subst_vars; exact .short 't' (by simp)
  split
  · subst_vars; exact .short 'r' (by simp)
  split
  · subst_vars; exact .short 'n' (by simp)
  split
  · subst_vars; exact .short '"' (by simp)
  split
  · subst_vars; exact .short '\\' (by simp)
  split
  · rename_i h1 h2 h
    exact .plain h1 h2 (h.imp id And.left)
  · exact .code

theorem dbgChar_inj {p q : Prints} {c d : Char} {r s : Str} (h : dbgChar p c ++ r = dbgChar q d ++ s) : c = d ∧ r = s := by
  have h1 := dbgChar_shown p c
  have h2 := dbgChar_shown q d
  generalize dbgChar p c = a at h h1
  generalize dbgChar q d = b at h h2
  cases h1 with
  | plain k1 k2 _ =>
    cases h2 with
    | plain => simpa using h
    | short x hx => simp at h; exact absurd h.1 k2
    | code => simp at h; exact absurd h.1 k2
  | short x hx =>
    cases h2 with
    | plain m1 m2 _ => simp at h; exact absurd h.1.symm m2
    | short y hy =>
      simp only [List.cons_append, List.nil_append, List.cons.injEq, true_and] at h
      obtain ⟨rfl, rfl⟩ := h
      refine ⟨?_, rfl⟩
      simp only [List.mem_cons, Prod.mk.injEq, List.not_mem_nil, or_false] at hx hy
      rcases hx with ⟨rfl, rfl⟩ | ⟨rfl, rfl⟩ | ⟨rfl, rfl⟩ | ⟨rfl, rfl⟩ | ⟨rfl, rfl⟩ | ⟨rfl, rfl⟩ <;> simp at hy <;> exact hy.symm
    | code =>
      simp only [List.cons_append, List.nil_append, List.cons.injEq, true_and] at h
      obtain ⟨rfl, -⟩ := h
      simp at hx
  | code =>
    cases h2 with
    | plain m1 m2 _ => simp at h; exact absurd h.1.symm m2
    | short y hy =>
      simp only [List.cons_append, List.nil_append, List.cons.injEq, true_and] at h
      obtain ⟨rfl, -⟩ := h
      simp at hy
    | code =>
      simp only [List.cons_append, List.nil_append, List.append_assoc, List.cons.injEq, true_and] at h
      obtain ⟨h1, h2⟩ := span_inj (P := fun x => x ≠ '}') (fun x hx => (natHex_chars _ x hx).1) (fun x hx => (natHex_chars _ x hx).1)
        (by simp) (by simp) h
      exact ⟨Char.toNat_inj.1 (natHex_inj _ _ h1), by simpa using h2⟩

theorem dbgChar_head (p : Prints) (c : Char) (r s : Str) : dbgChar p c ++ r ≠ '"' :: s := by
  have h1 := dbgChar_shown p c
  generalize dbgChar p c = a at h1
  intro h
  cases h1 with
  | plain k1 => simp at h; exact k1 h.1
  | short x hx => simp at h
  | code => simp at h

theorem dbgStr_inj {p q : Prints} {s t : Str} {a b : Str} (h : dbgStr p s ++ a = dbgStr q t ++ b) : s = t ∧ a = b := by
  simp only [dbgStr, List.cons_append, List.cons.injEq, true_and, List.append_assoc, List.nil_append] at h
  induction s generalizing t with
  | nil =>
    cases t with
    | nil => simpa using h
    | cons d t =>
      simp only [List.flatMap_nil, List.nil_append, List.flatMap_cons, List.append_assoc] at h
      exact absurd h.symm (dbgChar_head q d _ _)
  | cons c s ih =>
    cases t with
    | nil =>
      simp only [List.flatMap_nil, List.nil_append, List.flatMap_cons, List.append_assoc] at h
      exact absurd h (dbgChar_head p c _ _)
    | cons d t =>
      simp only [List.flatMap_cons, List.append_assoc] at h
      obtain ⟨rfl, h'⟩ := dbgChar_inj h
      obtain ⟨rfl, h''⟩ := ih h'
      exact ⟨rfl, h''⟩

theorem dbgMore_shape (bs : Bytes) (r : Str) : ∃ x s, dbgMore bs ++ r = x :: s ∧ ¬ x.isDigit = true := by
  cases bs with
  | nil => exact ⟨']', r, rfl, by decide⟩
  | cons b bs => exact ⟨',', _, rfl, by decide⟩

theorem dbgMore_inj {bs cs : Bytes} {r s : Str} (h : dbgMore bs ++ r = dbgMore cs ++ s) : bs = cs ∧ r = s := by
  induction bs generalizing cs with
  | nil =>
    cases cs with
    | nil => simpa [dbgMore] using h
    | cons c cs => simp [dbgMore] at h
  | cons b bs ih =>
    cases cs with
    | nil => simp [dbgMore] at h
    | cons c cs =>
      simp only [dbgMore, List.append_assoc] at h
      have h := List.append_cancel_left h
      obtain ⟨x, a, hx, dx⟩ := dbgMore_shape bs r
      obtain ⟨y, b', hy, dy⟩ := dbgMore_shape cs s
      rw [hx, hy] at h
      obtain ⟨h1, h2⟩ := span_inj (P := fun x => x.isDigit = true) (natDec_digits _) (natDec_digits _) dx dy h
      rw [← hx, ← hy] at h2
      obtain ⟨rfl, h3⟩ := ih h2
      exact ⟨by rw [UInt8.toNat_inj.1 (natDec_inj _ _ h1)], h3⟩

theorem dbgBytes_inj {bs cs : Bytes} {r s : Str} (h : dbgBytes bs ++ r = dbgBytes cs ++ s) : bs = cs ∧ r = s := by
  cases bs with
  | nil =>
    cases cs with
    | nil => simpa [dbgBytes] using h
    | cons c cs =>
      simp only [dbgBytes, List.cons_append, List.append_assoc] at h
      have h := (List.cons.inj (show '[' :: ']' :: r = '[' :: _ from h)).2
      obtain ⟨x, xs, hx⟩ : ∃ x xs, natDec c.toNat = x :: xs := by
        cases hn : natDec c.toNat with
        | nil => exact absurd hn (natDec_ne_nil _)
        | cons x xs => exact ⟨x, xs, rfl⟩
      have hd := natDec_digits c.toNat x (by rw [hx]; simp)
      rw [hx] at h
      have := (List.cons.inj h).1
      subst this
      exact absurd hd (by decide)
  | cons b bs =>
    cases cs with
    | nil =>
      simp only [dbgBytes, List.cons_append, List.append_assoc] at h
      have h := (List.cons.inj (show '[' :: _ = '[' :: ']' :: s from h)).2
      obtain ⟨x, xs, hx⟩ : ∃ x xs, natDec b.toNat = x :: xs := by
        cases hn : natDec b.toNat with
        | nil => exact absurd hn (natDec_ne_nil _)
        | cons x xs => exact ⟨x, xs, rfl⟩
      have hd := natDec_digits b.toNat x (by rw [hx]; simp)
      rw [hx] at h
      have := (List.cons.inj h).1
      subst this
      exact absurd hd (by decide)
    | cons c cs =>
      simp only [dbgBytes, List.cons_append, List.append_assoc, List.cons.injEq, true_and] at h
      obtain ⟨x, a, hx, dx⟩ := dbgMore_shape bs r
      obtain ⟨y, b', hy, dy⟩ := dbgMore_shape cs s
      rw [hx, hy] at h
      obtain ⟨h1, h2⟩ := span_inj (P := fun x => x.isDigit = true) (natDec_digits _) (natDec_digits _) dx dy h
      rw [← hx, ← hy] at h2
      obtain ⟨rfl, h3⟩ := dbgMore_inj h2
      exact ⟨by rw [UInt8.toNat_inj.1 (natDec_inj _ _ h1)], h3⟩

/-! ### Heads -/

theorem heads {a b x y : Str} (h : a ++ x = b ++ y) : a.take b.length = b.take a.length := by
  have h1 := congrArg (List.take (min a.length b.length)) h
  rw [List.take_append_of_le_length (Nat.min_le_left _ _), List.take_append_of_le_length (Nat.min_le_right _ _)] at h1
  rcases Nat.le_total a.length b.length with hl | hl
  · rw [Nat.min_eq_left hl] at h1
    rw [← h1, List.take_of_length_le hl, List.take_length]
  · rw [Nat.min_eq_right hl] at h1
    rw [h1, List.take_of_length_le hl, List.take_length]

/-- Texts that begin with different ones of these are different. -/
theorem heads_differ {hs : List Str} (hd : ∀ i < hs.length, ∀ j < hs.length, hs[i]!.take hs[j]!.length = hs[j]!.take hs[i]!.length → i = j)
    {i j : Nat} (hi : i < hs.length) (hj : j < hs.length) {x y : Str} (h : hs[i]! ++ x = hs[j]! ++ y) : i = j :=
  hd i hi j hj (heads h)

def headsE : List Str := ["Failed to parse websocket message: ".toList, "Received non-Text, non-Binary websocket message: ".toList,
  "Received message before open".toList, "Received message after close".toList, "Received second open".toList,
  "Failed to parse json in message: ".toList]
def headsS : List Str := ["Received non-attachment binary message: ".toList, "Received text message as attachment: ".toList,
  "Invalid message: ".toList, "Invalid extra data included in ".toList, "Missing data in ".toList,
  "Invalid json in message data: ".toList, "Wrong number of attachments provided: ".toList]
def headsA : List Str := ["Placeholder object is missing num field: ".toList, "Placeholder index out of range: ".toList,
  "Error deserializing json: ".toList, "Error serializing object to json: ".toList]
def headsR : List Str := ["Error deserializing engine.io protocol: ".toList, "Error deserializing socket.io protocol: ".toList,
  "Error deserializing argument: ".toList, "Event packet with no arguments: ".toList, "Unexpected ack received: ".toList]
def headsC : List Str := ["Websocket error: ".toList, "Failed to spawn task: ".toList, "Error processing packet: ".toList,
  "Connection timed out waiting for ".toList, "Already closed".toList]

theorem headsE_differ : ∀ i < headsE.length, ∀ j < headsE.length, headsE[i]!.take headsE[j]!.length = headsE[j]!.take headsE[i]!.length → i = j := by
  decide +kernel
theorem headsS_differ : ∀ i < headsS.length, ∀ j < headsS.length, headsS[i]!.take headsS[j]!.length = headsS[j]!.take headsS[i]!.length → i = j := by
  decide +kernel
theorem headsA_differ : ∀ i < headsA.length, ∀ j < headsA.length, headsA[i]!.take headsA[j]!.length = headsA[j]!.take headsA[i]!.length → i = j := by
  decide +kernel
theorem headsR_differ : ∀ i < headsR.length, ∀ j < headsR.length, headsR[i]!.take headsR[j]!.length = headsR[j]!.take headsR[i]!.length → i = j := by
  decide +kernel
theorem headsC_differ : ∀ i < headsC.length, ∀ j < headsC.length, headsC[i]!.take headsC[j]!.length = headsC[j]!.take headsC[i]!.length → i = j := by
  decide +kernel

theorem app4 (a b c d : Str) : a ++ b ++ c ++ d = a ++ (b ++ c ++ d) := by
  rw [List.append_assoc, List.append_assoc, List.append_assoc]

theorem headE (p : Prints) (e : EErr) : ∃ i x, i < headsE.length ∧ sortE e = [i] ∧ e.text p = headsE[i]! ++ x := by
  cases e with
  | invalidMessage m => exact ⟨0, _, by decide, rfl, rfl⟩
  | wrongMessageType m => exact ⟨1, _, by decide, rfl, rfl⟩
  | messageBeforeOpen => exact ⟨2, [], by decide, rfl, by rw [List.append_nil]; rfl⟩
  | messageAfterClose => exact ⟨3, [], by decide, rfl, by rw [List.append_nil]; rfl⟩
  | secondOpen => exact ⟨4, [], by decide, rfl, by rw [List.append_nil]; rfl⟩
  | jsonError => exact ⟨5, _, by decide, rfl, rfl⟩

theorem headS (p : Prints) (e : SErr) : ∃ i x, i < headsS.length ∧ sortS e = [i] ∧ e.text p = headsS[i]! ++ x := by
  cases e with
  | nonAttachmentBinary m => exact ⟨0, _, by decide, rfl, rfl⟩
  | textAttachment m => exact ⟨1, _, by decide, rfl, rfl⟩
  | invalidMessage m => exact ⟨2, _, by decide, rfl, rfl⟩
  | invalidExtraData n m => exact ⟨3, n ++ " packet: ".toList ++ m, by decide, rfl, app4 _ _ _ _⟩
  | missingData n m => exact ⟨4, n ++ " packet: ".toList ++ m, by decide, rfl, app4 _ _ _ _⟩
  | invalidDataJson m => exact ⟨5, m ++ ", ".toList ++ p.jsonDebug, by decide, rfl, app4 _ _ _ _⟩
  | invalidAttachmentCount a b =>
    exact ⟨6, natDec a ++ " instead of ".toList ++ natDec b, by decide, rfl, app4 _ _ _ _⟩

theorem headA (p : Prints) (e : AErr) : ∃ i x, i < headsA.length ∧ sortA e = [i] ∧ e.text p = headsA[i]! ++ x := by
  cases e with
  | noNumInPlaceholderObject m => exact ⟨0, _, by decide, rfl, rfl⟩
  | placeholderIndexOutOfRange a b => exact ⟨1, natDec a ++ "/".toList ++ natDec b, by decide, rfl, app4 _ _ _ _⟩
  | jsonDeError m => exact ⟨2, m ++ ", ".toList ++ p.jsonDisplay, by decide, rfl, app4 _ _ _ _⟩
  | jsonSerError => exact ⟨3, _, by decide, rfl, rfl⟩

theorem sortE_of {p q : Prints} {e f : EErr} (h : e.text p = f.text q) : sortE e = sortE f := by
  obtain ⟨i, x, hi, h1, h2⟩ := headE p e
  obtain ⟨j, y, hj, h3, h4⟩ := headE q f
  rw [h2, h4] at h
  rw [h1, h3, heads_differ headsE_differ hi hj h]

theorem sortS_of {p q : Prints} {e f : SErr} (h : e.text p = f.text q) : sortS e = sortS f := by
  obtain ⟨i, x, hi, h1, h2⟩ := headS p e
  obtain ⟨j, y, hj, h3, h4⟩ := headS q f
  rw [h2, h4] at h
  rw [h1, h3, heads_differ headsS_differ hi hj h]

theorem sortA_of {p q : Prints} {e f : AErr} (h : e.text p = f.text q) : sortA e = sortA f := by
  obtain ⟨i, x, hi, h1, h2⟩ := headA p e
  obtain ⟨j, y, hj, h3, h4⟩ := headA q f
  rw [h2, h4] at h
  rw [h1, h3, heads_differ headsA_differ hi hj h]

theorem sortR_of {p q : Prints} {e f : RErr} (h : e.text p = f.text q) : sortR e = sortR f := by
  have head : ∀ (p : Prints) (e : RErr), ∃ i x, i < headsR.length ∧ (sortR e).head? = some i ∧ e.text p = headsR[i]! ++ x := by
    intro p e
    cases e with
    | engine e => exact ⟨0, _, by decide, rfl, rfl⟩
    | socket e => exact ⟨1, _, by decide, rfl, rfl⟩
    | args e => exact ⟨2, _, by decide, rfl, rfl⟩
    | eventNoArgs e => exact ⟨3, _, by decide, rfl, rfl⟩
    | unexpectedAck e => exact ⟨4, _, by decide, rfl, rfl⟩
  obtain ⟨i, x, hi, h1, h2⟩ := head p e
  obtain ⟨j, y, hj, h3, h4⟩ := head q f
  have h' := h
  rw [h2, h4] at h'
  have := heads_differ headsR_differ hi hj h'
  subst this
  rw [← h3] at h1
  clear h2 h4 h3 h'
  cases e <;> cases f <;> first | (simp [sortR] at h1; done) | skip
  · rw [sortR, sortR, sortE_of (List.append_cancel_left h)]
  · rw [sortR, sortR, sortS_of (List.append_cancel_left h)]
  · rw [sortR, sortR, sortA_of (List.append_cancel_left h)]
  · rfl
  · rfl

/-- C69: whatever other crates print, the text of an error tells which variant it is, also of the errors inside. -/
theorem C69_sort (p q : Prints) (e f : CErr) (h : e.text p = f.text q) : sortC e = sortC f := by
  have head : ∀ (p : Prints) (e : CErr), ∃ i x, i < headsC.length ∧ (sortC e).head? = some i ∧ e.text p = headsC[i]! ++ x := by
    intro p e
    cases e with
    | websocket e => exact ⟨0, _, by decide, rfl, rfl⟩
    | spawn => exact ⟨1, _, by decide, rfl, rfl⟩
    | processing e => exact ⟨2, _, by decide, rfl, rfl⟩
    | timeout w => exact ⟨3, _, by decide, by cases w <;> rfl, rfl⟩
    | alreadyClosed => exact ⟨4, [], by decide, rfl, by rw [List.append_nil]; rfl⟩
  obtain ⟨i, x, hi, h1, h2⟩ := head p e
  obtain ⟨j, y, hj, h3, h4⟩ := head q f
  have h' := h
  rw [h2, h4] at h'
  have := heads_differ headsC_differ hi hj h'
  subst this
  rw [← h3] at h1
  clear h2 h4 h3 h'
  cases e with
  | websocket a =>
    cases f with
    | websocket b => rfl
    | timeout w => cases w <;> simp [sortC] at h1
    | _ => simp [sortC] at h1
  | spawn =>
    cases f with
    | spawn => rfl
    | timeout w => cases w <;> simp [sortC] at h1
    | _ => simp [sortC] at h1
  | processing a =>
    cases f with
    | processing b => rw [sortC, sortC, sortR_of (List.append_cancel_left h)]
    | timeout w => cases w <;> simp [sortC] at h1
    | _ => simp [sortC] at h1
  | timeout v =>
    cases f with
    | timeout w =>
      have hw : v.text = w.text := List.append_cancel_left h
      cases v <;> cases w <;> first | rfl | (revert hw; decide +kernel)
    | _ => cases v <;> simp [sortC] at h1
  | alreadyClosed =>
    cases f with
    | alreadyClosed => rfl
    | timeout w => cases w <;> simp [sortC] at h1
    | _ => simp [sortC] at h1

def headsW : List Str := ["Text(".toList, "Binary(".toList, "Ping(".toList, "Pong(".toList]

theorem headsW_differ : ∀ i < headsW.length, ∀ j < headsW.length, headsW[i]!.take headsW[j]!.length = headsW[j]!.take headsW[i]!.length → i = j := by
  decide +kernel

theorem app3 (a b c : Str) : a ++ b ++ c = a ++ (b ++ c) := List.append_assoc a b c

theorem dbgWs_inj {p q : Prints} {m n : Ws} (hm : m ≠ .close) (hn : n ≠ .close) (h : dbgWs p m = dbgWs q n) : m = n := by
  have head : ∀ (p : Prints) (m : Ws), m ≠ .close → ∃ i x, i < headsW.length ∧
      i = (match m with | .text _ => 0 | .binary _ => 1 | .ping _ => 2 | .pong _ => 3 | .close => 4) ∧ dbgWs p m = headsW[i]! ++ x := by
    intro p m hm
    cases m with
    | close => exact absurd rfl hm
    | text s => exact ⟨0, _, by decide, rfl, app3 _ _ _⟩
    | binary s => exact ⟨1, _, by decide, rfl, app3 _ _ _⟩
    | ping s => exact ⟨2, _, by decide, rfl, app3 _ _ _⟩
    | pong s => exact ⟨3, _, by decide, rfl, app3 _ _ _⟩
  obtain ⟨i, x, hi, h1, h2⟩ := head p m hm
  obtain ⟨j, y, hj, h3, h4⟩ := head q n hn
  have h' := h
  rw [h2, h4] at h'
  have := heads_differ headsW_differ hi hj h'
  rw [h1, h3] at this
  clear h1 h2 h3 h4 h' head
  cases m <;> cases n <;> first | (cases this; done) | (exact absurd rfl hm) | skip
  · rw [(dbgStr_inj (List.append_cancel_left ((app3 _ _ _).symm.trans (h.trans (app3 _ _ _))))).1]
  · rw [(dbgBytes_inj (List.append_cancel_left ((app3 _ _ _).symm.trans (h.trans (app3 _ _ _))))).1]
  · rw [(dbgBytes_inj (List.append_cancel_left ((app3 _ _ _).symm.trans (h.trans (app3 _ _ _))))).1]
  · rw [(dbgBytes_inj (List.append_cancel_left ((app3 _ _ _).symm.trans (h.trans (app3 _ _ _))))).1]

/-- C69: an error of the engine.io layer can be read off its text, with the whole message it quotes. -/
theorem C69_engine (p q : Prints) (e f : EErr) (he : ExactE e) (hf : ExactE f) (h : e.text p = f.text q) : e = f := by
  have hs := sortE_of h
  cases e <;> cases f <;> first | rfl | (simp [sortE] at hs; done) | skip
  · rw [dbgWs_inj (by rintro rfl; exact he) (by rintro rfl; exact hf) (List.append_cancel_left h)]
  · rw [dbgWs_inj (by rintro rfl; exact he) (by rintro rfl; exact hf) (List.append_cancel_left h)]

theorem counts_inj (sep : Str) (x : Char) (r : Str) (hs : sep = x :: r) (hx : ¬ x.isDigit = true) {a b c d : Nat}
    (h : natDec a ++ sep ++ natDec b = natDec c ++ sep ++ natDec d) : a = c ∧ b = d := by
  subst hs
  rw [List.append_assoc, List.append_assoc, List.cons_append, List.cons_append] at h
  obtain ⟨h1, h2⟩ := span_inj (natDec_digits a) (natDec_digits c) hx hx h
  rw [List.cons.injEq] at h2
  exact ⟨natDec_inj _ _ h1, natDec_inj _ _ (List.append_cancel_left h2.2)⟩

theorem names_differ : ∀ i < packetNames.length, ∀ j < packetNames.length,
    (packetNames[i]! ++ " packet: ".toList).take (packetNames[j]! ++ " packet: ".toList).length =
      (packetNames[j]! ++ " packet: ".toList).take (packetNames[i]! ++ " packet: ".toList).length → i = j := by
  decide +kernel

theorem names_inj {m n s t : Str} (hm : m ∈ packetNames) (hn : n ∈ packetNames)
    (h : m ++ " packet: ".toList ++ s = n ++ " packet: ".toList ++ t) : m = n ∧ s = t := by
  obtain ⟨i, hi, rfl⟩ := List.mem_iff_getElem.1 hm
  obtain ⟨j, hj, rfl⟩ := List.mem_iff_getElem.1 hn
  have := names_differ i hi j hj (by
    rw [getElem!_pos packetNames i hi, getElem!_pos packetNames j hj]
    exact heads h)
  subst this
  exact ⟨rfl, List.append_cancel_left h⟩

/-- C69: an error of the socket.io layer can be read off its text, with the message it quotes, unless that is followed by
an error of the JSON library. -/
theorem C69_socket (p q : Prints) (e f : SErr) (he : ExactS e) (hf : ExactS f) (h : e.text p = f.text q) : e = f := by
  have hs := sortS_of h
  cases e <;> cases f <;> first | (simp [sortS] at hs; done) | skip
  · have h := List.append_cancel_left (as := "Received non-attachment binary message: ".toList) h
    have h := dbgBytes_inj (congrArg (· ++ []) h)
    rw [h.1]
  · have h := List.append_cancel_left (as := "Received text message as attachment: ".toList) h
    rw [h]
  · have h := List.append_cancel_left (as := "Invalid message: ".toList) h
    rw [h]
  · have h := List.append_cancel_left ((app4 _ _ _ _).symm.trans (h.trans (app4 _ _ _ _)))
    obtain ⟨rfl, rfl⟩ := names_inj he hf h
    rfl
  · have h := List.append_cancel_left ((app4 _ _ _ _).symm.trans (h.trans (app4 _ _ _ _)))
    obtain ⟨rfl, rfl⟩ := names_inj he hf h
    rfl
  · exact absurd he id
  · have h := List.append_cancel_left ((app4 _ _ _ _).symm.trans (h.trans (app4 _ _ _ _)))
    obtain ⟨h1, h2⟩ := counts_inj " instead of ".toList ' ' "instead of ".toList rfl (by decide) h
    rw [h1, h2]

/-! ### The decoder -/

/-- Fails only with errors the text of which says everything, or with one of the JSON library. -/
def Named {α : Type} (r : Res SErr α) : Prop := ∀ e, r = .err e → ExactS e ∨ ∃ s, e = .invalidDataJson s

theorem Named.bind {α β : Type} {r : Res SErr α} {f : α → Res SErr β} (hr : Named r) (hf : ∀ a, Named (f a)) : Named (r >>= f) := by
  intro e he
  cases r with
  | ok a => exact hf a e he
  | err e' => cases he; exact hr _ rfl
  | panic => cases he

theorem Named.map {α β : Type} {r : Res SErr α} {f : α → β} (hr : Named r) : Named (r.map f) := by
  intro e he
  cases r with
  | ok a => cases he
  | err e' => cases he; exact hr _ rfl
  | panic => cases he

theorem Named.ok {α : Type} (a : α) : Named (.ok a : Res SErr α) := by intro e he; cases he

theorem Named.panic {α : Type} : Named (.panic : Res SErr α) := by intro e he; cases he

theorem Named.unwrap {α : Type} (o : Option α) : Named (Res.unwrap o : Res SErr α) := by
  intro e he
  cases o <;> cases he

theorem Named.err {α : Type} {e : SErr} (h : ExactS e) : Named (.err e : Res SErr α) := by intro e' he; cases he; exact .inl h

theorem Named.json {α : Type} (s : Str) : Named (.err (.invalidDataJson s) : Res SErr α) := by intro e' he; cases he; exact .inr ⟨s, rfl⟩

theorem parseText_named (t : OwnedSubslice Str) : Named (parseText t) := by
  have hu : ∀ s o, Named (capU64 s o) := by
    intro s o
    cases o with
    | none => exact .ok _
    | some r => exact (Named.unwrap _).bind fun _ => (Named.unwrap _).bind fun _ => .ok _
  refine (Named.unwrap _).bind fun s => ?_
  split
  · exact .err trivial
  · refine (Named.unwrap _).bind fun g => (Named.unwrap _).bind fun ks => (Named.unwrap _).bind fun k => Named.bind ?_ fun kind =>
      (hu _ _).bind fun _ => (hu _ _).bind fun _ => Named.bind ?_ fun _ => .ok _
    · unfold kindOfDigit
      repeat (split; exact .ok _)
      exact .panic
    · unfold capArgs
      split
      · exact .ok _
      · refine (Named.unwrap _).bind fun x => Named.bind ?_ fun _ => .ok _
        unfold parseArgs
        split
        · split
          · split
            · exact .ok _
            · exact .json _
          · exact .json _
        · exact .json _

theorem deserializeEvent_named (p : Parse) (k : Kind) {n : Str} (hn : n ∈ packetNames) (att : List (OwnedSubslice Bytes)) :
    Named (deserializeEvent p k n att) := by
  unfold deserializeEvent
  split
  · exact (Named.unwrap _).bind fun _ => .err hn
  · split
    · exact .err trivial
    · exact .ok _

/-- C69: what the decoder says of a message, and of the attachments of a packet, can be read off the text. -/
theorem C69_decoder (m : EMsg) (q : Parse) (ms : List EMsg) (e : SErr)
    (h : deserialize m = .err e ∨ deserializePartial q ms = .err e) : ExactS e ∨ ∃ s, e = .invalidDataJson s := by
  rcases h with h | h
  · refine (?_ : Named (deserialize m)) e h
    cases m with
    | binary b => exact (Named.unwrap _).bind fun _ => .err trivial
    | text t =>
      refine (parseText_named t).bind fun p => ?_
      have hd : ∀ k n, n ∈ packetNames → Named (deserializeDataless p k n) := by
        intro k n hn
        unfold deserializeDataless
        split
        · exact (Named.unwrap _).bind fun _ => .err hn
        · exact .ok _
      have hb : ∀ k n, n ∈ packetNames → Named (deserializeBinary p k n) := by
        intro k n hn
        unfold deserializeBinary
        split
        · split
          · exact (deserializeEvent_named _ _ hn _).map
          · exact .ok _
        · exact (Named.unwrap _).bind fun _ => .err hn
      split
      · exact (hd _ _ (by decide +kernel)).map
      · exact (hd _ _ (by decide +kernel)).map
      · exact (deserializeEvent_named _ _ (by decide +kernel) _).map
      · exact (deserializeEvent_named _ _ (by decide +kernel) _).map
      · exact hb _ _ (by decide +kernel)
      · exact hb _ _ (by decide +kernel)
  · refine (?_ : Named (deserializePartial q ms)) e h
    clear h
    refine Named.bind ?_ fun att => ?_
    · induction ms with
      | nil => exact .ok _
      | cons m ms ih =>
        cases m with
        | text t => exact (Named.unwrap _).bind fun _ => .err trivial
        | binary b => exact Named.bind ih fun _ => .ok _
    · split
      · exact deserializeEvent_named _ _ (by decide +kernel) _
      · exact deserializeEvent_named _ _ (by decide +kernel) _
      · exact .panic

/-- C69: an error about a placeholder tells its number and how many attachments there are. -/
theorem C69_placeholder (p q : Prints) (a b : Nat) (f : AErr)
    (h : (AErr.placeholderIndexOutOfRange a b).text p = f.text q) : f = .placeholderIndexOutOfRange a b := by
  have hs := sortA_of h
  cases f with
  | placeholderIndexOutOfRange c d =>
    have h := List.append_cancel_left ((app4 _ _ _ _).symm.trans (h.trans (app4 _ _ _ _)))
    obtain ⟨rfl, rfl⟩ := counts_inj "/".toList '/' [] rfl (by decide) h
    rfl
  | _ => simp [sortA] at hs

/-- C69: of the errors about one address, the text tells which it is, and the scheme that is not accepted. -/
theorem C69_url (p q : Prints) (uri : Str) (e f : UrlErr) (h : e.text p uri = f.text q uri) : e = f := by
  have h := List.append_cancel_left h
  cases e with
  | invalidScheme s =>
    cases f with
    | invalidScheme t =>
      have h := List.append_cancel_left (as := "Invalid scheme: ".toList) h
      have h := dbgStr_inj (congrArg (· ++ []) h)
      rw [h.1]
    | noHost =>
      exact absurd (heads (a := "Invalid scheme: ".toList) (x := dbgStr p s) (b := "No host".toList) (y := []) (by rw [List.append_nil]; exact h)) (by decide +kernel)
  | noHost =>
    cases f with
    | noHost => rfl
    | invalidScheme t =>
      exact absurd (heads (a := "Invalid scheme: ".toList) (x := dbgStr q t) (b := "No host".toList) (y := []) (by rw [List.append_nil]; exact h.symm)) (by decide +kernel)

/-! ### One line -/

theorem lit_line (t : Str) (h : t.all (fun c => decide (32 ≤ c.toNat ∧ c.toNat < 127)) = true) : ∀ c ∈ t, ¬ Control c := by
  intro c hc hk
  have := of_decide_eq_true (List.all_eq_true.1 h c hc)
  unfold Control at hk
  omega

theorem app_line {s t : Str} (hs : ∀ c ∈ s, ¬ Control c) (ht : ∀ c ∈ t, ¬ Control c) : ∀ c ∈ s ++ t, ¬ Control c := by
  intro c hc
  exact (List.mem_append.1 hc).elim (hs c) (ht c)

theorem dec_line (n : Nat) : ∀ c ∈ natDec n, ¬ Control c := by
  intro c hc hk
  have := natDec_digits n c hc
  unfold Control at hk
  simp only [Char.isDigit, Bool.and_eq_true, decide_eq_true_eq, UInt32.le_iff_toNat_le] at this
  have h1 : c.toNat = c.val.toNat := rfl
  have h2 : (48 : UInt32).toNat = 48 := rfl
  have h3 : (57 : UInt32).toNat = 57 := rfl
  simp at this
  omega

theorem dbgChar_line (p : Prints) (c : Char) : ∀ d ∈ dbgChar p c, ¬ Control d := by
  generalize he : dbgChar p c = t
  have h := dbgChar_shown p c
  rw [he] at h
  cases h with
  | plain h1 h2 h3 =>
    intro d hd
    rw [List.mem_singleton] at hd
    subst hd
    unfold Control
    omega
  | short x hx =>
    simp only [List.mem_cons, List.not_mem_nil, or_false, Prod.mk.injEq] at hx
    rcases hx with ⟨_, rfl⟩ | ⟨_, rfl⟩ | ⟨_, rfl⟩ | ⟨_, rfl⟩ | ⟨_, rfl⟩ | ⟨_, rfl⟩ <;> exact lit_line _ (by decide +kernel)
  | code =>
    refine app_line (s := ['\\', 'u', '{']) (lit_line _ (by decide +kernel)) (app_line ?_ (lit_line _ (by decide +kernel)))
    intro d hd
    have := (natHex_chars _ d hd).2
    unfold Control
    omega

theorem dbgStr_line (p : Prints) (s : Str) : ∀ c ∈ dbgStr p s, ¬ Control c := by
  refine app_line (s := ['"']) (lit_line _ (by decide +kernel)) (app_line ?_ (lit_line _ (by decide +kernel)))
  intro c hc
  obtain ⟨d, _, hd⟩ := List.mem_flatMap.1 hc
  exact dbgChar_line p d c hd

theorem dbgMore_line (bs : Bytes) : ∀ c ∈ dbgMore bs, ¬ Control c := by
  induction bs with
  | nil => exact lit_line _ (by decide +kernel)
  | cons b bs ih => exact app_line (app_line (lit_line _ (by decide +kernel)) (dec_line _)) ih

theorem dbgBytes_line (bs : Bytes) : ∀ c ∈ dbgBytes bs, ¬ Control c := by
  cases bs with
  | nil => exact lit_line _ (by decide +kernel)
  | cons b bs => exact app_line (s := ['[']) (lit_line _ (by decide +kernel)) (app_line (dec_line _) (dbgMore_line bs))

/-- C69: the text of an engine.io error has no control character, whatever the server sent, if those of other crates have none. -/
theorem C69_line (p : Prints) (e : EErr) (hj : ∀ c ∈ p.jsonDebug, ¬ Control c) (hc : ∀ c ∈ p.close, ¬ Control c) :
    ∀ c ∈ e.text p, ¬ Control c := by
  have ws : ∀ m, ∀ c ∈ dbgWs p m, ¬ Control c := by
    intro m
    cases m with
    | text s => exact app_line (app_line (lit_line _ (by decide +kernel)) (dbgStr_line p s)) (lit_line _ (by decide +kernel))
    | binary b => exact app_line (app_line (lit_line _ (by decide +kernel)) (dbgBytes_line b)) (lit_line _ (by decide +kernel))
    | ping b => exact app_line (app_line (lit_line _ (by decide +kernel)) (dbgBytes_line b)) (lit_line _ (by decide +kernel))
    | pong b => exact app_line (app_line (lit_line _ (by decide +kernel)) (dbgBytes_line b)) (lit_line _ (by decide +kernel))
    | close => exact app_line (app_line (lit_line _ (by decide +kernel)) hc) (lit_line _ (by decide +kernel))
  cases e with
  | invalidMessage m => exact app_line (lit_line _ (by decide +kernel)) (ws m)
  | wrongMessageType m => exact app_line (lit_line _ (by decide +kernel)) (ws m)
  | messageBeforeOpen => exact lit_line "Received message before open".toList (by decide +kernel)
  | messageAfterClose => exact lit_line "Received message after close".toList (by decide +kernel)
  | secondOpen => exact lit_line "Received second open".toList (by decide +kernel)
  | jsonError => exact app_line (lit_line _ (by decide +kernel)) hj

/-- C69: the text of a socket.io error quotes a text message as it is: every control character of it is in the text. -/
theorem C69_raw (p : Prints) (s : Str) (c : Char) (hc : c ∈ s) :
    c ∈ (SErr.invalidMessage s).text p ∧ c ∈ (SErr.textAttachment s).text p ∧ c ∈ (SErr.invalidDataJson s).text p :=
  ⟨List.mem_append.2 (.inr hc), List.mem_append.2 (.inr hc),
    List.mem_append.2 (.inl (List.mem_append.2 (.inl (List.mem_append.2 (.inr hc)))))⟩

/-! ### The words -/

/-- `a` stands somewhere in `b`. -/
theorem Has.of {a b : Str} (x y : Str) (h : b = x ++ a ++ y) : a <:+: b := ⟨x, y, h.symm⟩

theorem Has.left {a b : Str} (c : Str) (h : a <:+: b) : a <:+: b ++ c := by
  obtain ⟨x, y, rfl⟩ := h
  exact ⟨x, y ++ c, by simp only [List.append_assoc]⟩

theorem Has.right {a b : Str} (c : Str) (h : a <:+: b) : a <:+: c ++ b := by
  obtain ⟨x, y, rfl⟩ := h
  exact ⟨c ++ x, y, by simp only [List.append_assoc]⟩

theorem Has.refl (a : Str) : a <:+: a := ⟨[], [], by simp⟩

theorem wordsE_in (p : Prints) (e : EErr) : ∀ w ∈ wordsE e, w <:+: e.text p := by
  intro w hw
  cases e <;> simp only [wordsE, List.mem_cons, List.not_mem_nil, or_false] at hw <;> subst hw
  · exact Has.left _ (Has.of [] ": ".toList (by decide +kernel))
  · exact Has.left _ (Has.of "Received ".toList " websocket message: ".toList (by decide +kernel))
  · refine Has.of "Received message ".toList [] ?_; show "Received message before open".toList = _; decide +kernel
  · refine Has.of "Received message ".toList [] ?_; show "Received message after close".toList = _; decide +kernel
  · refine Has.of "Received ".toList [] ?_; show "Received second open".toList = _; decide +kernel
  · exact Has.left _ (Has.of "Failed to parse ".toList " in message: ".toList (by decide +kernel))

theorem wordsS_in (p : Prints) (e : SErr) : ∀ w ∈ wordsS e, w <:+: e.text p := by
  intro w hw
  cases e <;> simp only [wordsS, List.mem_cons, List.not_mem_nil, or_false] at hw
  · subst hw; exact Has.left _ (Has.of "Received ".toList " message: ".toList (by decide +kernel))
  · subst hw; exact Has.left _ (Has.of "Received ".toList ": ".toList (by decide +kernel))
  · subst hw; exact Has.left _ (Has.of [] ": ".toList (by decide +kernel))
  · rcases hw with rfl | rfl
    · exact Has.left _ (Has.left _ (Has.left _ (Has.of [] " included in ".toList (by decide +kernel))))
    · refine Has.left _ ?_
      exact ⟨"Invalid extra data included".toList, ": ".toList, by
        rw [show "Invalid extra data included in ".toList = "Invalid extra data included".toList ++ " in ".toList by decide +kernel,
          show " packet: ".toList = " packet".toList ++ ": ".toList by decide +kernel]
        simp only [List.append_assoc]⟩
  · rcases hw with rfl | rfl
    · exact Has.left _ (Has.left _ (Has.left _ (Has.of [] " in ".toList (by decide +kernel))))
    · refine Has.left _ ?_
      exact ⟨"Missing data".toList, ": ".toList, by
        rw [show "Missing data in ".toList = "Missing data".toList ++ " in ".toList by decide +kernel,
          show " packet: ".toList = " packet".toList ++ ": ".toList by decide +kernel]
        simp only [List.append_assoc]⟩
  · subst hw; exact Has.left _ (Has.left _ (Has.left _ (Has.of [] " in message data: ".toList (by decide +kernel))))
  · rcases hw with rfl | rfl
    · exact Has.left _ (Has.left _ (Has.left _ (Has.of [] " provided: ".toList (by decide +kernel))))
    · refine ⟨"Wrong number of attachments provided: ".toList, [], ?_⟩
      rw [List.append_nil, ← natDec_decimal, ← natDec_decimal]
      exact (app4 _ _ _ _).symm

theorem wordsA_in (p : Prints) (e : AErr) : ∀ w ∈ wordsA e, w <:+: e.text p := by
  intro w hw
  cases e <;> simp only [wordsA, List.mem_cons, List.not_mem_nil, or_false] at hw
  · subst hw; exact Has.left _ (Has.of "Placeholder object is ".toList " field: ".toList (by decide +kernel))
  · rcases hw with rfl | rfl
    · exact Has.left _ (Has.left _ (Has.left _ (Has.of "Placeholder index ".toList ": ".toList (by decide +kernel))))
    · refine ⟨"Placeholder index out of range: ".toList, [], ?_⟩
      rw [List.append_nil, ← natDec_decimal, ← natDec_decimal]
      exact (app4 _ _ _ _).symm
  · rcases hw with rfl | rfl
    · exact Has.left _ (Has.left _ (Has.left _ (Has.of "Error ".toList ": ".toList (by decide +kernel))))
    · exact Has.left _ (Has.left _ (Has.right _ (Has.refl _)))
  · subst hw; exact Has.left _ (Has.of "Error".toList " object to json: ".toList (by decide +kernel))

theorem wordsR_in (p : Prints) (e : RErr) : ∀ w ∈ wordsR e, w <:+: e.text p := by
  intro w hw
  cases e with
  | engine e =>
    rcases List.mem_cons.1 hw with rfl | hw
    · exact Has.left _ (Has.of "Error deserializing ".toList " protocol: ".toList (by decide +kernel))
    · exact Has.right _ (wordsE_in p e w hw)
  | socket e =>
    rcases List.mem_cons.1 hw with rfl | hw
    · exact Has.left _ (Has.of "Error deserializing ".toList " protocol: ".toList (by decide +kernel))
    · exact Has.right _ (wordsS_in p e w hw)
  | args e =>
    rcases List.mem_cons.1 hw with rfl | hw
    · exact Has.left _ (Has.of "Error deserializing ".toList ": ".toList (by decide +kernel))
    · exact Has.right _ (wordsA_in p e w hw)
  | eventNoArgs pk =>
    rw [List.mem_singleton.1 hw]
    exact Has.left _ (Has.of [] ": ".toList (by decide +kernel))
  | unexpectedAck pk =>
    rw [List.mem_singleton.1 hw]
    exact Has.left _ (Has.of [] " received: ".toList (by decide +kernel))

/-- C69: the text of an error says what went wrong, from the outside to the inside, with the counts in their order. -/
theorem C69_words (p : Prints) (e : CErr) : ∀ w ∈ wordsC e, w <:+: e.text p := by
  intro w hw
  cases e with
  | websocket e =>
    rw [List.mem_singleton.1 hw]
    exact Has.left _ (Has.of [] ": ".toList (by decide +kernel))
  | spawn =>
    rw [List.mem_singleton.1 hw]
    exact Has.left _ (Has.of [] " task: ".toList (by decide +kernel))
  | processing e =>
    rcases List.mem_cons.1 hw with rfl | hw
    · exact Has.left _ (Has.of "Error ".toList ": ".toList (by decide +kernel))
    · exact Has.right _ (wordsR_in p e w hw)
  | timeout t =>
    have ht : "timed out".toList <:+: (CErr.timeout t).text p :=
      Has.left _ (Has.of "Connection ".toList " waiting for ".toList (by decide +kernel))
    cases t with
    | handshake =>
      rcases List.mem_cons.1 hw with rfl | hw
      · exact ht
      · rw [List.mem_singleton.1 hw]; exact Has.right _ (Has.refl _)
    | openPacket =>
      rcases List.mem_cons.1 hw with rfl | hw
      · exact ht
      · rw [List.mem_singleton.1 hw]; exact Has.right _ (Has.of "engine.io protocol ".toList [] (by decide +kernel))
    | close =>
      rcases List.mem_cons.1 hw with rfl | hw
      · exact ht
      · rw [List.mem_singleton.1 hw]; exact Has.right _ (Has.refl _)
  | alreadyClosed =>
    rw [List.mem_singleton.1 hw]
    exact Has.refl _

/-- C69: the text of an address error contains the address and says what is wrong with it. -/
theorem C69_address (p : Prints) (uri : Str) (e : UrlErr) :
    uri <:+: e.text p uri ∧
    (match e with | .invalidScheme _ => "Invalid scheme".toList | .noHost => "No host".toList) <:+: e.text p uri := by
  refine ⟨Has.left _ (Has.left _ (Has.right _ (Has.refl _))), ?_⟩
  cases e with
  | invalidScheme s =>
    show "Invalid scheme".toList <:+: _
    exact Has.right _ (Has.left _ (Has.of [] ": ".toList (by decide +kernel)))
  | noHost =>
    show "No host".toList <:+: _
    exact Has.right _ (Has.refl _)

/-- C69: the counts are those of the attachments that came and of those the packet announced. -/
theorem C69_counts (q : Parse) (ms : List EMsg) (got announced : Nat)
    (h : deserializePartial q ms = .err (.invalidAttachmentCount got announced)) :
    got = ms.length ∧ announced = q.attachments.getD 0 ∧ got ≠ announced := by
  have hb : ∀ (ms : List EMsg), (∀ bs, binaries ms = .ok bs → bs.length = ms.length) ∧
      ∀ a b, binaries ms ≠ .err (.invalidAttachmentCount a b) := by
    intro ms
    induction ms with
    | nil => exact ⟨fun bs h => (by cases h; rfl), fun a b h => (by cases h)⟩
    | cons m ms ih =>
      cases m with
      | text t =>
        constructor
        · intro bs h
          simp only [binaries] at h
          cases hd : t.deref <;> rw [hd] at h <;> cases h
        · intro a b h
          simp only [binaries] at h
          cases hd : t.deref <;> rw [hd] at h <;> cases h
      | binary b =>
        simp only [binaries]
        cases hr : binaries ms with
        | ok bs =>
          refine ⟨fun cs h => ?_, fun a b h => (by cases h)⟩
          cases h
          simp [ih.1 bs hr]
        | err e =>
          refine ⟨fun cs h => (by cases h), fun a b h => ?_⟩
          refine ih.2 a b ?_
          cases h
          exact hr
        | panic => exact ⟨fun cs h => (by cases h), fun a b h => (by cases h)⟩
  have he : ∀ k n att, deserializeEvent q k n att = .err (.invalidAttachmentCount got announced) →
      got = att.length ∧ announced = q.attachments.getD 0 ∧ got ≠ announced := by
    intro k n att h
    unfold deserializeEvent at h
    split at h
    · cases hm : msgText q <;> rw [hm] at h
      · cases h
      · rename_i e
        have : ∀ a b, msgText q ≠ .err (.invalidAttachmentCount a b) := by
          intro a b h
          unfold msgText at h
          cases hd : q.message.deref <;> rw [hd] at h <;> cases h
        cases h
        exact absurd hm (this _ _)
      · cases h
    · split at h
      · cases h
        rename_i hne
        exact ⟨rfl, rfl, hne⟩
      · cases h
  unfold deserializePartial at h
  cases hbs : binaries ms with
  | ok bs =>
    rw [hbs] at h
    rw [← (hb ms).1 bs hbs]
    replace h : (match q.kind with
      | .binaryEvent => deserializeEvent q .event _ bs
      | .binaryAck => deserializeEvent q .ack _ bs
      | _ => Res.panic) = .err (.invalidAttachmentCount got announced) := h
    split at h
    · exact he _ _ _ h
    · exact he _ _ _ h
    · cases h
  | err e =>
    rw [hbs] at h
    cases h
    exact absurd hbs ((hb ms).2 _ _)
  | panic =>
    rw [hbs] at h
    cases h

/-! ### Examples -/

/-- Other crates that print nothing. -/
def silent : Prints := ⟨fun _ => true, [], [], fun _ => [], fun _ => [], fun _ => [], [], []⟩

-- Texts of errors, as the program prints them.
example : (EErr.invalidMessage (.text "a\"b\n\x7f".toList)).text silent =
    "Failed to parse websocket message: Text(\"a\\\"b\\n\\u{7f}\")".toList := by decide +kernel
example : (EErr.wrongMessageType (.ping [1, 200])).text silent =
    "Received non-Text, non-Binary websocket message: Ping([1, 200])".toList := by decide +kernel
example : (EErr.wrongMessageType (.pong [])).text silent =
    "Received non-Text, non-Binary websocket message: Pong([])".toList := by decide +kernel
example : (EErr.invalidMessage (.binary [9])).text silent = "Failed to parse websocket message: Binary([9])".toList := by decide +kernel
example : (CErr.processing (.engine .secondOpen)).text silent =
    "Error processing packet: Error deserializing engine.io protocol: Received second open".toList := by decide +kernel
example : (CErr.processing (.socket (.invalidAttachmentCount 3 12))).text silent =
    "Error processing packet: Error deserializing socket.io protocol: Wrong number of attachments provided: 3 instead of 12".toList := by
  decide +kernel
example : (CErr.processing (.args (.placeholderIndexOutOfRange 5 2))).text silent =
    "Error processing packet: Error deserializing argument: Placeholder index out of range: 5/2".toList := by decide +kernel
example : (SErr.invalidExtraData "connect".toList "0{}".toList).text silent =
    "Invalid extra data included in connect packet: 0{}".toList := by decide +kernel
example : (CErr.timeout .openPacket).text silent =
    "Connection timed out waiting for engine.io protocol Open message".toList := by decide +kernel
example : (UrlErr.invalidScheme "ftp".toList).text silent "ftp://h".toList =
    "Failed to parse URI ftp://h: Invalid scheme: \"ftp\"".toList := by decide +kernel
-- Nothing can be read off where both sides of a comma are open: two errors with one text.
example : ∃ p q, (SErr.invalidDataJson "a".toList).text p = (SErr.invalidDataJson "a, b".toList).text q :=
  ⟨{ silent with jsonDebug := "b, c".toList }, { silent with jsonDebug := "c".toList }, by decide +kernel⟩
-- One attachment of the two that were announced.
example : (deserialize (.text (.ofWhole "52-[\"a\"]".toList)) >>= fun r => match r with
      | .dataNeeded q => (deserializePartial q [.binary (.ofWhole [1])]).map .packet
      | r => .ok r) = .err (.invalidAttachmentCount 1 2) := by
  decide +kernel
example : wordsC (.processing (.socket (.invalidAttachmentCount 1 2))) =
    ["processing packet".toList, "socket.io".toList, "Wrong number of attachments".toList, "1 instead of 2".toList] := by decide +kernel
-- A line break sent by the server gets into the text of a socket.io error.
example : Control '\n' ∧ '\n' ∈ (CErr.processing (.socket (.invalidMessage "\n".toList))).text silent := by
  refine ⟨.inl (by decide), by decide +kernel⟩
-- The names in the errors of the decoder are from the list.
example : ExactS (.missingData "event".toList []) ∧ ¬ ExactS (.missingData "events".toList []) ∧ ExactE .secondOpen ∧
    ¬ ExactE (.invalidMessage .close) := by
  refine ⟨?_, ?_, trivial, id⟩ <;> unfold ExactS <;> decide +kernel

end SIO
