import Verif.Props.Engine
import Verif.Lemmas.Value
/-
C50: what the engine decoder makes of every message, and what the encoders make.
-/
namespace SIO
open Spec

namespace Spec

/-- What an engine.io message says. -/
inductive Says where
  | opened (o : Open)
  | close
  | ping
  | pong
  | text (t : List Char)
  | binary (b : List UInt8)

/-- The tree is the string. -/
def IsStr (t : JTree) (s : List Char) : Prop := ∃ raw, t = .str raw ∧ StrDenotes raw s

/-- The tree is the unsigned number of 64 bits. -/
def IsU64 (t : JTree) (n : Nat) : Prop := t = .num (decimal n) ∧ n < 2 ^ 64

/-- The object has exactly one member of this name. -/
def Member (kvs : List (List Char × JTree)) (name : List Char) (x : JTree) : Prop :=
  ∃ a k b, kvs = a ++ (k, x) :: b ∧ StrDenotes k name ∧ ∀ p ∈ a ++ b, ¬ StrDenotes p.1 name

/-- The JSON of an open packet: an object with the three members and any others, or an array of the
three values. -/
def OpenJson (t : JTree) (o : Open) : Prop :=
  ∃ a b c, IsStr a o.sid ∧ IsU64 b o.pingTimeout ∧ IsU64 c o.pingInterval ∧
    (t = .arr [a, b, c] ∨ ∃ kvs, t = .obj kvs ∧ (∀ p ∈ kvs, ∃ s, StrDenotes p.1 s) ∧
      Member kvs "sid".toList a ∧ Member kvs "pingTimeout".toList b ∧ Member kvs "pingInterval".toList c)

/-- The message as it is sent: a digit for the type, then the contents. -/
inductive Wire : Ws → Says → Prop where
  | opened (s : List Char) (t : JTree) (o : Open) : IsText t s → OpenJson t o → Wire (.text ('0' :: s)) (.opened o)
  | close (s : List Char) : Wire (.text ('1' :: s)) .close
  | ping (s : List Char) : Wire (.text ('2' :: s)) .ping
  | pong (s : List Char) : Wire (.text ('3' :: s)) .pong
  | text (s : List Char) : Wire (.text ('4' :: s)) (.text s)
  | binary (b : List UInt8) : Wire (.binary (4 :: b)) (.binary b)

/-- What a decoded packet says. -/
inductive Tells : EPacket → Says → Prop where
  | opened (o : Open) : Tells (.opened o) (.opened o)
  | close : Tells .close .close
  | ping : Tells .ping .ping
  | pong : Tells .pong .pong
  | text (o : OwnedSubslice Str) (t : Str) : o.deref = some t → Tells (.message (.text o)) (.text t)
  | binary (o : OwnedSubslice Bytes) (b : Bytes) : o.deref = some b → Tells (.message (.binary o)) (.binary b)

/-- A close packet was decoded before position `i`. -/
def CloseBefore (ws : List Ws) (i : Nat) : Prop := ∃ j, j < i ∧ DecodedAt ws j .close

/-- When a message is taken: an open packet first and only once, text at any time, everything else
after the open packet (text before it is the defect of C10). -/
def InTime (opened : Prop) : Says → Prop
  | .opened _ => ¬ opened
  | .text _ => True
  | _ => opened

/-- Which error a message gives. -/
inductive Fails (opened closed : Prop) : Ws → EErr → Prop where
  | closed (w : Ws) : closed → Fails opened closed w .messageAfterClose
  | frame (w : Ws) : ¬ closed → (∀ s, w ≠ .text s) → (∀ b, w ≠ .binary b) → Fails opened closed w (.wrongMessageType w)
  | second (s : List Char) : ¬ closed → opened → Fails opened closed (.text ('0' :: s)) .secondOpen
  | json (s : List Char) : ¬ closed → ¬ opened → (∀ t o, IsText t s → ¬ OpenJson t o) →
      Fails opened closed (.text ('0' :: s)) .jsonError
  | early (c : Char) (s : List Char) : ¬ closed → ¬ opened → c = '1' ∨ c = '2' ∨ c = '3' →
      Fails opened closed (.text (c :: s)) .messageBeforeOpen
  | earlyBinary (b : List UInt8) : ¬ closed → ¬ opened → Fails opened closed (.binary b) .messageBeforeOpen
  | invalid (s : List Char) : ¬ closed → (∀ c ∈ ['0', '1', '2', '3', '4'], ∀ r, s ≠ c :: r) →
      Fails opened closed (.text s) (.invalidMessage (.text s))
  | invalidBinary (b : List UInt8) : ¬ closed → opened → (∀ r, b ≠ 4 :: r) →
      Fails opened closed (.binary b) (.invalidMessage (.binary b))

end Spec

/-! ### The open packet -/

/-- The values of the members of this name. -/
def valsOf (name : Str) (kvs : List (Str × JTree)) : List JTree :=
  kvs.filterMap fun p => if unescape p.1 = some name then some p.2 else none

theorem valsOf_nil_iff (name : Str) (kvs : List (Str × JTree)) :
    valsOf name kvs = [] ↔ ∀ p ∈ kvs, ¬ StrDenotes p.1 name := by
  simp [valsOf, ← unescape_iff]

theorem valsOf_one_iff (name : Str) (kvs : List (Str × JTree)) (x : JTree) :
    valsOf name kvs = [x] ↔ Member kvs name x := by
  constructor
  · intro h
    induction kvs with
    | nil => simp [valsOf] at h
    | cons p kvs ih =>
      obtain ⟨k, y⟩ := p
      by_cases hk : unescape k = some name
      · have h2 : y = x ∧ valsOf name kvs = [] := by
          simpa [valsOf, hk] using h
        obtain ⟨rfl, h2⟩ := h2
        exact ⟨[], k, kvs, rfl, (unescape_iff _ _).1 hk, by simpa using (valsOf_nil_iff name kvs).1 h2⟩
      · obtain ⟨a, k', b, rfl, h1, h2⟩ := ih (by simpa [valsOf, hk] using h)
        refine ⟨(k, y) :: a, k', b, rfl, h1, ?_⟩
        intro p hp
        simp only [List.cons_append, List.mem_cons] at hp
        rcases hp with rfl | hp
        · rw [← unescape_iff]; exact hk
        · exact h2 p hp
  · rintro ⟨a, k, b, rfl, h1, h2⟩
    have ha : valsOf name a = [] := (valsOf_nil_iff name a).2 fun p hp => h2 p (by simp [hp])
    have hb : valsOf name b = [] := (valsOf_nil_iff name b).2 fun p hp => h2 p (by simp [hp])
    unfold valsOf at ha hb ⊢
    rw [List.filterMap_append, List.filterMap_cons, ha, hb, if_pos ((unescape_iff _ _).2 h1)]
    rfl

/-- One field of the visitor before and after members with the values `vs`. -/
def FieldRel {α : Type} (dec : JTree → Option α) : List JTree → Option α → Option α → Prop
  | [], f, g => g = f
  | [x], f, g => f = none ∧ ∃ v, dec x = some v ∧ g = some v
  | _, _, _ => False

theorem fieldRel_cons {α : Type} (dec : JTree → Option α) (x : JTree) (vs : List JTree) (f g : Option α) :
    FieldRel dec (x :: vs) f g ↔ f = none ∧ ∃ v, dec x = some v ∧ FieldRel dec vs (some v) g := by
  cases vs with
  | nil => simp [FieldRel]
  | cons y vs =>
    cases vs <;> simp [FieldRel]

theorem openFields_iff (kvs : List (Str × JTree)) : ∀ f g : OpenFields, openFields kvs f = some g ↔
    (∀ p ∈ kvs, ∃ s, StrDenotes p.1 s) ∧
    FieldRel jString (valsOf "sid".toList kvs) f.sid g.sid ∧
    FieldRel jU64 (valsOf "pingTimeout".toList kvs) f.pingTimeout g.pingTimeout ∧
    FieldRel jU64 (valsOf "pingInterval".toList kvs) f.pingInterval g.pingInterval := by
  have n1 : "sid".toList ≠ "pingTimeout".toList := by decide
  have n2 : "sid".toList ≠ "pingInterval".toList := by decide
  have n3 : "pingTimeout".toList ≠ "pingInterval".toList := by decide
  generalize hS : "sid".toList = S at *
  generalize hT : "pingTimeout".toList = T at *
  generalize hI : "pingInterval".toList = I at *
  induction kvs with
  | nil =>
    rintro ⟨a, b, c⟩ ⟨a', b', c'⟩
    simp only [openFields, valsOf, FieldRel, List.filterMap_nil, List.not_mem_nil, false_implies, implies_true,
      true_and, Option.some.injEq, OpenFields.mk.injEq]
    constructor <;> (rintro ⟨rfl, rfl, rfl⟩; exact ⟨rfl, rfl, rfl⟩)
  | cons p kvs ih =>
    obtain ⟨k, x⟩ := p
    rintro ⟨a, b, c⟩ g
    simp only [openFields, hS, hT, hI]
    cases hk : unescape k with
    | none =>
      simp only [reduceCtorEq, false_iff]
      rintro ⟨h, _⟩
      obtain ⟨s, hs⟩ := h (k, x) (by simp)
      rw [(unescape_iff _ _).2 hs] at hk
      simp at hk
    | some s =>
      have hden : ∃ s, StrDenotes k s := ⟨s, (unescape_iff _ _).1 hk⟩
      have hv : ∀ name, valsOf name ((k, x) :: kvs) = if s = name then x :: valsOf name kvs else valsOf name kvs := by
        intro name
        simp only [valsOf, List.filterMap_cons, hk, Option.some.injEq]
        by_cases hn : s = name <;> simp [hn]
      have hall : (∀ p ∈ (k, x) :: kvs, ∃ s, StrDenotes p.1 s) ↔ ∀ p ∈ kvs, ∃ s, StrDenotes p.1 s := by
        simp [hden]
      rw [hall, hv, hv, hv]
      simp only
      by_cases h1 : s = S
      · subst h1
        rw [if_pos rfl, if_pos rfl, if_neg n1, if_neg n2, fieldRel_cons]
        cases a with
        | some v => simp
        | none =>
          cases hx : jString x with
          | none => simp
          | some v => simp [ih]
      · rw [if_neg h1, if_neg h1]
        by_cases h2 : s = T
        · subst h2
          rw [if_pos rfl, if_pos rfl, if_neg n3, fieldRel_cons]
          cases b with
          | some v => simp
          | none =>
            cases hx : jU64 x with
            | none => simp
            | some v => simp [ih]
        · rw [if_neg h2, if_neg h2]
          by_cases h3 : s = I
          · subst h3
            rw [if_pos rfl, if_pos rfl, fieldRel_cons]
            cases c with
            | some v => simp
            | none =>
              cases hx : jU64 x with
              | none => simp
              | some v => simp [ih]
          · rw [if_neg h3, if_neg h3]
            exact ih _ _

theorem fieldRel_none {α : Type} (dec : JTree → Option α) (vs : List JTree) (v : α) :
    FieldRel dec vs none (some v) ↔ ∃ x, vs = [x] ∧ dec x = some v := by
  cases vs with
  | nil => simp [FieldRel]
  | cons x vs => cases vs <;> simp [FieldRel]

theorem jString_iff (t : JTree) (s : Str) : jString t = some s ↔ IsStr t s := by
  cases t <;> simp [jString, IsStr, unescape_iff]

theorem jU64_iff {t : JTree} (ht : NumsOk t) (n : Nat) : jU64 t = some n ↔ IsU64 t n := by
  cases t with
  | num l =>
    simp only [jU64, IsU64, JTree.num.injEq]
    have hu : u64Bound = 2 ^ 64 := rfl
    constructor
    · intro h
      split at h
      · rename_i hc
        simp only [Option.some.injEq] at h
        subst h
        exact ⟨isDec_decimal (isNum_digits ht (by simpa using hc.2.1)), by rw [← hu]; exact hc.2.2⟩
      · simp at h
    · rintro ⟨rfl, hn⟩
      rw [if_pos ⟨decimal_ne_nil n, by simpa using decimal_digits n, by rw [decVal_decimal, hu]; exact hn⟩, decVal_decimal]
  | _ => simp [jU64, IsU64]

theorem valsOf_mem {name : Str} {kvs : List (Str × JTree)} {x : JTree} (h : Member kvs name x) : ∃ k, (k, x) ∈ kvs := by
  obtain ⟨a, k, b, rfl, _⟩ := h
  exact ⟨k, by simp⟩

theorem numsOkM_mem {kvs : List (Str × JTree)} (h : NumsOkM kvs) {k : Str} {x : JTree} (hm : (k, x) ∈ kvs) : NumsOk x := by
  induction kvs with
  | nil => simp at hm
  | cons p kvs ih =>
    obtain ⟨k', y⟩ := p
    simp only [NumsOkM] at h
    simp only [List.mem_cons, Prod.mk.injEq] at hm
    rcases hm with ⟨_, rfl⟩ | hm
    · exact h.1
    · exact ih h.2 hm

theorem openOfTree_iff {t : JTree} (ht : NumsOk t) (o : Open) : openOfTree t = some o ↔ OpenJson t o := by
  obtain ⟨sid, pt, pi⟩ := o
  cases t with
  | obj kvs =>
    have hmid : openOfTree (.obj kvs) = some ⟨sid, pt, pi⟩ ↔ openFields kvs {} = some ⟨some sid, some pt, some pi⟩ := by
      simp only [openOfTree]
      split
      · rename_i h
        rw [h]
        simp
      · rename_i h
        simp only [reduceCtorEq, false_iff]
        intro h'
        exact h _ _ _ h'
    rw [hmid, openFields_iff]
    simp only [fieldRel_none, valsOf_one_iff, OpenJson, reduceCtorEq, false_or, JTree.obj.injEq, NumsOk] at ht ⊢
    constructor
    · rintro ⟨h0, ⟨a, ha, ha'⟩, ⟨b, hb, hb'⟩, c, hc, hc'⟩
      obtain ⟨_, kb⟩ := valsOf_mem hb
      obtain ⟨_, kc⟩ := valsOf_mem hc
      exact ⟨a, b, c, (jString_iff _ _).1 ha', (jU64_iff (numsOkM_mem ht kb) _).1 hb',
        (jU64_iff (numsOkM_mem ht kc) _).1 hc', kvs, rfl, h0, ha, hb, hc⟩
    · rintro ⟨a, b, c, ha', hb', hc', _, rfl, h0, ha, hb, hc⟩
      obtain ⟨_, kb⟩ := valsOf_mem hb
      obtain ⟨_, kc⟩ := valsOf_mem hc
      exact ⟨h0, ⟨a, ha, (jString_iff _ _).2 ha'⟩, ⟨b, hb, (jU64_iff (numsOkM_mem ht kb) _).2 hb'⟩, c, hc,
        (jU64_iff (numsOkM_mem ht kc) _).2 hc'⟩
  | arr ts =>
    match ts, ht with
    | [a, b, c], ht =>
      simp only [NumsOk, NumsOkL] at ht
      simp only [openOfTree, OpenJson, JTree.arr.injEq, List.cons.injEq, and_true, reduceCtorEq, false_and, exists_false,
        or_false]
      constructor
      · intro h
        split at h
        · rename_i h1 h2 h3
          simp only [Option.some.injEq, Open.mk.injEq] at h
          obtain ⟨rfl, rfl, rfl⟩ := h
          exact ⟨a, b, c, (jString_iff _ _).1 h1, (jU64_iff ht.2.1 _).1 h2, (jU64_iff ht.2.2.1 _).1 h3, rfl, rfl, rfl⟩
        · simp at h
      · rintro ⟨_, _, _, h1, h2, h3, rfl, rfl, rfl⟩
        rw [(jString_iff _ _).2 h1, (jU64_iff ht.2.1 _).2 h2, (jU64_iff ht.2.2.1 _).2 h3]
    | [], _ => simp [openOfTree, OpenJson]
    | [_], _ => simp [openOfTree, OpenJson]
    | [_, _], _ => simp [openOfTree, OpenJson]
    | _ :: _ :: _ :: _ :: _, _ => simp [openOfTree, OpenJson]
  | _ => simp [openOfTree, OpenJson]

theorem parseOpen_iff (s : Str) (o : Open) : parseOpen s = .ok o ↔ ∃ t, IsText t s ∧ OpenJson t o := by
  unfold parseOpen
  cases hp : parseTree s with
  | none =>
    simp only [Option.bind_none, Res.ofOption, reduceCtorEq, false_iff]
    rintro ⟨t, ht, _⟩
    rw [(parseTree_iff s t).2 ht] at hp
    simp at hp
  | some t =>
    have ht := (parseTree_iff s t).1 hp
    have hn : NumsOk t := by
      obtain ⟨_, v, _, _, _, _, hv⟩ := ht
      exact isVal_numsOk t v hv
    simp only [Option.bind_some]
    constructor
    · intro h
      cases ho : openOfTree t with
      | none => rw [ho] at h; simp [Res.ofOption] at h
      | some o' =>
        rw [ho] at h
        simp only [Res.ofOption, Res.ok.injEq] at h
        subst h
        exact ⟨t, ht, (openOfTree_iff hn o').1 ho⟩
    · rintro ⟨t', ht', ho⟩
      rw [isText_unique ht' ht] at ho
      rw [(openOfTree_iff hn o).2 ho]
      rfl

theorem parseOpen_err (s : Str) (e : EErr) : parseOpen s = .err e ↔ e = .jsonError ∧ ∀ t o, IsText t s → ¬ OpenJson t o := by
  constructor
  · intro h
    constructor
    · unfold parseOpen Res.ofOption at h
      split at h
      · simp at h
      · simpa using h.symm
    · intro t o ht ho
      rw [(parseOpen_iff s o).2 ⟨t, ht, ho⟩] at h
      simp at h
  · rintro ⟨rfl, h⟩
    cases hp : parseOpen s with
    | ok o =>
      obtain ⟨t, ht, ho⟩ := (parseOpen_iff s o).1 hp
      exact absurd ho (h t o ht)
    | err e =>
      unfold parseOpen Res.ofOption at hp
      split at hp
      · simp at hp
      · simpa using hp.symm
    | panic =>
      unfold parseOpen Res.ofOption at hp
      split at hp <;> simp at hp

/-! ### One message in a given state -/

theorem deref_text1 (r : Str) : (OwnedSubslice.new ('4' :: r) 1 (blen ('4' :: r))).deref = some r := deref_text r

theorem deref_binary1 (r : Bytes) : (OwnedSubslice.new ((4 : UInt8) :: r) 1 ((4 : UInt8) :: r).length).deref = some r := by
  simp [OwnedSubslice.new, OwnedSubslice.deref, Sliceable.slice, sliceV]

theorem decode_ok_iff (st : EState) (w : Ws) (m : Says) : (∃ p, (decode st w).2 = .ok p ∧ Tells p m) ↔
    st ≠ .closed ∧ Wire w m ∧ InTime (st ≠ .initial) m := by
  unfold decode
  by_cases hcl : st = .closed
  · simp [hcl]
  rw [if_neg hcl]
  simp only [ne_eq, hcl, not_false_eq_true, true_and]
  have two : st = .initial ∨ st = .active := by cases st <;> simp_all
  constructor
  · rintro ⟨p, hp, hs⟩
    cases w with
    | ping b => simp at hp
    | pong b => simp at hp
    | close => simp at hp
    | binary b =>
      simp only [decodeBinary] at hp
      split at hp
      · simp at hp
      · rename_i hi
        cases b with
        | nil => simp at hp
        | cons x b =>
          simp only at hp
          split at hp
          · simp at hp
          · rename_i hx
            simp only [ne_eq, Decidable.not_not] at hx
            subst hx
            simp only [Res.ok.injEq] at hp
            subst hp
            cases hs with
            | binary _ b' hd =>
              rw [deref_binary1] at hd
              simp only [Option.some.injEq] at hd
              subst hd
              exact ⟨.binary b, hi⟩
    | text s =>
      cases s with
      | nil => simp [decodeText] at hp
      | cons c s =>
        simp only [decodeText] at hp
        split at hp
        · rename_i hc
          subst hc
          split at hp
          · simp at hp
          · rename_i hi
            simp only [ne_eq, Decidable.not_not] at hi
            cases ho : parseOpen s with
            | err e => rw [ho] at hp; simp at hp
            | panic => rw [ho] at hp; simp at hp
            | ok o =>
              rw [ho] at hp
              simp only [Res.ok.injEq] at hp
              subst hp
              cases hs
              obtain ⟨t, ht, hto⟩ := (parseOpen_iff s o).1 ho
              exact ⟨.opened s t o ht hto, by simp [InTime, hi]⟩
        · split at hp
          · rename_i hc
            subst hc
            split at hp
            · simp at hp
            · rename_i hi
              simp only [Res.ok.injEq] at hp
              subst hp
              cases hs
              exact ⟨.close s, hi⟩
          · split at hp
            · rename_i hc
              subst hc
              split at hp
              · simp at hp
              · rename_i hi
                simp only [Res.ok.injEq] at hp
                subst hp
                cases hs
                exact ⟨.ping s, hi⟩
            · split at hp
              · rename_i hc
                subst hc
                split at hp
                · simp at hp
                · rename_i hi
                  simp only [Res.ok.injEq] at hp
                  subst hp
                  cases hs
                  exact ⟨.pong s, hi⟩
              · split at hp
                · rename_i hc
                  subst hc
                  simp only [Res.ok.injEq] at hp
                  subst hp
                  cases hs with
                  | text _ t' hd =>
                    rw [deref_text1] at hd
                    simp only [Option.some.injEq] at hd
                    subst hd
                    exact ⟨.text s, trivial⟩
                · simp at hp
  · rintro ⟨hw, hi⟩
    cases hw with
    | opened s t o ht ho =>
      simp only [InTime, Classical.not_not] at hi
      refine ⟨.opened o, ?_, .opened o⟩
      simp [decodeText, hi, (parseOpen_iff s o).2 ⟨t, ht, ho⟩]
    | close s =>
      simp only [InTime] at hi
      exact ⟨.close, by simp [decodeText, hi], .close⟩
    | ping s =>
      simp only [InTime] at hi
      exact ⟨.ping, by simp [decodeText, hi], .ping⟩
    | pong s =>
      simp only [InTime] at hi
      exact ⟨.pong, by simp [decodeText, hi], .pong⟩
    | text s => exact ⟨_, rfl, .text _ _ (deref_text1 s)⟩
    | binary b =>
      simp only [InTime] at hi
      exact ⟨_, by simp only [decodeBinary, if_neg hi]; rfl, .binary _ _ (deref_binary1 b)⟩

theorem decode_err_iff (st : EState) (w : Ws) (e : EErr) : (decode st w).2 = .err e ↔
    Fails (st ≠ .initial) (st = .closed) w e := by
  unfold decode
  by_cases hcl : st = .closed
  · subst hcl
    simp only [if_true, Res.err.injEq]
    constructor
    · rintro rfl; exact .closed w trivial
    · intro h
      cases h <;> first | rfl | (exfalso; simp_all; done)
  rw [if_neg hcl]
  constructor
  · intro h
    cases w with
    | ping b => simp at h; subst h; exact .frame _ hcl (by simp) (by simp)
    | pong b => simp at h; subst h; exact .frame _ hcl (by simp) (by simp)
    | close => simp at h; subst h; exact .frame _ hcl (by simp) (by simp)
    | binary b =>
      simp only [decodeBinary] at h
      split at h
      · rename_i hi
        simp at h; subst h
        exact .earlyBinary b hcl (by simpa using hi)
      · rename_i hi
        cases b with
        | nil =>
          simp at h; subst h
          exact .invalidBinary _ hcl hi (by simp)
        | cons x b =>
          simp only at h
          split at h
          · rename_i hx
            simp at h; subst h
            exact .invalidBinary _ hcl hi (by intro r hr; simp at hr; exact hx hr.1)
          · simp at h
    | text s =>
      cases s with
      | nil =>
        simp [decodeText] at h; subst h
        exact .invalid _ hcl (by simp)
      | cons c s =>
        simp only [decodeText] at h
        split at h
        · rename_i hc
          subst hc
          split at h
          · rename_i hi
            simp at h; subst h
            exact .second s hcl hi
          · rename_i hi
            cases ho : parseOpen s with
            | err e' =>
              rw [ho] at h
              simp at h
              subst h
              obtain ⟨rfl, h2⟩ := (parseOpen_err s e').1 ho
              exact .json s hcl hi h2
            | panic => rw [ho] at h; simp at h
            | ok o => rw [ho] at h; simp at h
        · rename_i h0
          split at h
          · rename_i hc
            split at h
            · rename_i hi
              simp at h; subst h
              exact .early c s hcl (by simpa using hi) (Or.inl hc)
            · simp at h
          · rename_i h1
            split at h
            · rename_i hc
              split at h
              · rename_i hi
                simp at h; subst h
                exact .early c s hcl (by simpa using hi) (Or.inr (Or.inl hc))
              · simp at h
            · rename_i h2
              split at h
              · rename_i hc
                split at h
                · rename_i hi
                  simp at h; subst h
                  exact .early c s hcl (by simpa using hi) (Or.inr (Or.inr hc))
                · simp at h
              · rename_i h3
                split at h
                · simp at h
                · rename_i h4
                  simp at h; subst h
                  refine .invalid _ hcl ?_
                  intro d hd r hr
                  simp only [List.cons.injEq] at hr
                  obtain ⟨rfl, _⟩ := hr
                  simp_all
  · intro h
    cases h with
    | closed _ h => exact absurd h hcl
    | frame _ _ ht hb =>
      cases w with
      | text s => exact absurd rfl (ht s)
      | binary b => exact absurd rfl (hb b)
      | _ => rfl
    | second s _ ho => simp [decodeText, ho]
    | json s _ ho hj =>
      simp only [ne_eq, Classical.not_not] at ho
      simp [decodeText, ho, (parseOpen_err s .jsonError).2 ⟨rfl, hj⟩]
    | early c s _ ho hc =>
      simp only [ne_eq, Classical.not_not] at ho
      rcases hc with rfl | rfl | rfl <;> simp [decodeText, ho]
    | earlyBinary b _ ho =>
      simp only [ne_eq, Classical.not_not] at ho
      simp [decodeBinary, ho]
    | invalid s _ hs =>
      cases s with
      | nil => simp [decodeText]
      | cons c s =>
        have : ∀ d ∈ ['0', '1', '2', '3', '4'], c ≠ d := fun d hd hcd => hs d hd s (by rw [hcd])
        simp only [decodeText]
        rw [if_neg (this _ (by simp)), if_neg (this _ (by simp)), if_neg (this _ (by simp)), if_neg (this _ (by simp)),
          if_neg (this _ (by simp))]
    | invalidBinary b _ ho hb =>
      simp only [ne_eq] at ho
      cases b with
      | nil => simp [decodeBinary, ho]
      | cons x b =>
        have : x ≠ 4 := fun hx => hb b (by rw [hx])
        simp [decodeBinary, ho, this]

/-! ### Histories -/

theorem stateAfter_snoc (st : EState) (a : List Ws) (w : Ws) :
    stateAfter st (a ++ [w]) = (decode (stateAfter st a) w).1 := by
  induction a generalizing st with
  | nil => rfl
  | cons x a ih => simp [stateAfter, ih]

theorem before_succ {ws : List Ws} {i : Nat} {P : EPacket → Prop} :
    (∃ j p, j < i + 1 ∧ DecodedAt ws j p ∧ P p) ↔ (∃ j p, j < i ∧ DecodedAt ws j p ∧ P p) ∨ ∃ p, DecodedAt ws i p ∧ P p := by
  constructor
  · rintro ⟨j, p, hj, hd⟩
    by_cases h : j = i
    · subst h; exact Or.inr ⟨p, hd⟩
    · exact Or.inl ⟨j, p, by omega, hd⟩
  · rintro (⟨j, p, hj, hd⟩ | ⟨p, hd⟩)
    · exact ⟨j, p, by omega, hd⟩
    · exact ⟨i, p, by omega, hd⟩

/-- What the state remembers. -/
theorem state_history (a : List Ws) : ∀ b, (stateAfter EState.new a ≠ .initial ↔ OpenBefore (a ++ b) a.length) ∧
    (stateAfter EState.new a = .closed ↔ CloseBefore (a ++ b) a.length) := by
  rcases List.eq_nil_or_concat a with rfl | ⟨a', w, rfl⟩
  · intro b; simp [stateAfter, EState.new, OpenBefore, CloseBefore]
  · intro b
    rw [List.concat_eq_append]
    have ih := state_history a' (w :: b)
    have hdec : ∀ p, DecodedAt (a' ++ w :: b) a'.length p ↔ (decode (stateAfter EState.new a') w).2 = .ok p := by
      intro p
      unfold DecodedAt connResults
      rw [results_at]
      simp
    have ho : OpenBefore (a' ++ [w] ++ b) (a' ++ [w]).length ↔
        OpenBefore (a' ++ w :: b) a'.length ∨ ∃ o, DecodedAt (a' ++ w :: b) a'.length (.opened o) := by
      simp only [List.append_assoc, List.singleton_append, List.length_append, List.length_singleton]
      constructor
      · rintro ⟨j, o, hj, hd⟩
        by_cases h : j = a'.length
        · subst h; exact Or.inr ⟨o, hd⟩
        · exact Or.inl ⟨j, o, by omega, hd⟩
      · rintro (⟨j, o, hj, hd⟩ | ⟨o, hd⟩)
        · exact ⟨j, o, by omega, hd⟩
        · exact ⟨a'.length, o, by omega, hd⟩
    have hc : CloseBefore (a' ++ [w] ++ b) (a' ++ [w]).length ↔
        CloseBefore (a' ++ w :: b) a'.length ∨ DecodedAt (a' ++ w :: b) a'.length .close := by
      simp only [List.append_assoc, List.singleton_append, List.length_append, List.length_singleton]
      constructor
      · rintro ⟨j, hj, hd⟩
        by_cases h : j = a'.length
        · subst h; exact Or.inr hd
        · exact Or.inl ⟨j, by omega, hd⟩
      · rintro (⟨j, hj, hd⟩ | hd)
        · exact ⟨j, by omega, hd⟩
        · exact ⟨a'.length, by omega, hd⟩
    rw [ho, hc, ← ih.1, ← ih.2, hdec, stateAfter_snoc]
    simp only [hdec]
    rcases decode_state (stateAfter EState.new a') w with ⟨o, h1, h2, h3⟩ | ⟨h1, h2, h3⟩ | ⟨h1, h2, h3⟩
    · rw [h1, h3, h2]; simp
    · rw [h1, h3, h2]; simp
    · rw [h3]; simp [h1, h2]
termination_by a.length
decreasing_by all_goals simp_all

/-- C50: a message is decoded, to what it says, exactly if it has the form of an engine.io message,
no close packet came before it and it is in time. -/
theorem C50_decoded (ws : List Ws) (i : Nat) (m : Says) :
    (∃ p, DecodedAt ws i p ∧ Tells p m) ↔
      ∃ w, ws[i]? = some w ∧ Wire w m ∧ ¬ CloseBefore ws i ∧ InTime (OpenBefore ws i) m := by
  by_cases hi : i < ws.length
  · have hsplit : ws = ws.take i ++ ws[i] :: ws.drop (i + 1) := by
      rw [← List.drop_eq_getElem_cons hi, List.take_append_drop]
    have hlen : (ws.take i).length = i := by simp; omega
    have hs := state_history (ws.take i) (ws[i] :: ws.drop (i + 1))
    rw [← hsplit, hlen] at hs
    have hres : (connResults ws)[i]? = some (decode (stateAfter EState.new (ws.take i)) ws[i]).2 := by
      have := results_at EState.new (ws.take i) (ws.drop (i + 1)) ws[i]
      rw [← hsplit, hlen] at this
      exact this
    unfold DecodedAt
    rw [hres]
    simp only [Option.some.injEq, List.getElem?_eq_getElem hi, exists_eq_left']
    rw [decode_ok_iff, ← hs.2]
    have : InTime (stateAfter EState.new (ws.take i) ≠ .initial) m ↔ InTime (OpenBefore ws i) m := by
      rw [← propext hs.1]
    rw [this]
    constructor
    · rintro ⟨h1, h2, h3⟩; exact ⟨h2, h1, h3⟩
    · rintro ⟨h2, h1, h3⟩; exact ⟨h1, h2, h3⟩
  · have h1 : (connResults ws)[i]? = none := by
      rw [List.getElem?_eq_none_iff, connResults, results_length]; omega
    have h2 : ws[i]? = none := by rw [List.getElem?_eq_none_iff]; omega
    simp [DecodedAt, h1, h2]

/-- C50: what is decoded always says something. -/
theorem C50_tells (ws : List Ws) (i : Nat) (p : EPacket) (h : DecodedAt ws i p) : ∃ m, Tells p m := by
  obtain ⟨a, w, b, rfl, rfl, hr⟩ := results_getElem _ _ _ _ h
  cases p with
  | opened o => exact ⟨_, .opened o⟩
  | close => exact ⟨_, .close⟩
  | ping => exact ⟨_, .ping⟩
  | pong => exact ⟨_, .pong⟩
  | message m =>
    unfold decode at hr
    split at hr
    · simp at hr
    · cases w with
      | ping b => simp at hr
      | pong b => simp at hr
      | close => simp at hr
      | binary b =>
        simp only [decodeBinary] at hr
        repeat' split at hr
        all_goals try (simp at hr; done)
        rename_i hx
        simp only [ne_eq, Decidable.not_not] at hx
        subst hx
        simp only [Res.ok.injEq, EPacket.message.injEq] at hr
        subst hr
        exact ⟨_, .binary _ _ (deref_binary1 _)⟩
      | text s =>
        cases s with
        | nil => simp [decodeText] at hr
        | cons c s =>
          simp only [decodeText] at hr
          repeat' split at hr
          all_goals try (simp at hr; done)
          rename_i hx
          subst hx
          simp only [Res.ok.injEq, EPacket.message.injEq] at hr
          subst hr
          exact ⟨_, .text _ _ (deref_text1 _)⟩

/-- C50: and otherwise the decoder gives exactly the error of the first rule that is broken. -/
theorem C50_error (ws : List Ws) (i : Nat) (e : EErr) : (connResults ws)[i]? = some (.err e) ↔
    ∃ w, ws[i]? = some w ∧ Fails (OpenBefore ws i) (CloseBefore ws i) w e := by
  by_cases hi : i < ws.length
  · have hsplit : ws = ws.take i ++ ws[i] :: ws.drop (i + 1) := by
      rw [← List.drop_eq_getElem_cons hi, List.take_append_drop]
    have hlen : (ws.take i).length = i := by simp; omega
    have hs := state_history (ws.take i) (ws[i] :: ws.drop (i + 1))
    rw [← hsplit, hlen] at hs
    have hres : (connResults ws)[i]? = some (decode (stateAfter EState.new (ws.take i)) ws[i]).2 := by
      have := results_at EState.new (ws.take i) (ws.drop (i + 1)) ws[i]
      rw [← hsplit, hlen] at this
      exact this
    rw [hres, ← propext hs.1, ← propext hs.2]
    simp only [Option.some.injEq, List.getElem?_eq_getElem hi, exists_eq_left']
    exact decode_err_iff _ _ _
  · have h1 : (connResults ws)[i]? = none := by
      rw [List.getElem?_eq_none_iff, connResults, results_length]; omega
    have h2 : ws[i]? = none := by rw [List.getElem?_eq_none_iff]; omega
    simp [h1, h2]

/-- C50: the encoders make the messages of what they are given; the packaging functions take the
finished text or bytes, and panic exactly if these do not start with the type. -/
theorem C50_encode (s : Str) (b : Bytes) :
    (∃ w, encodeMessage s = .ok w ∧ Wire w (.text s)) ∧ (∃ w, encodeBinary b = .ok w ∧ Wire w (.binary b)) ∧
    Wire encodePing .ping ∧ Wire encodePong .pong ∧
    (∀ w, packageMessage s = .ok w ↔ w = .text s ∧ ∃ r, s = '4' :: r) ∧
    (packageMessage s = .panic ↔ ¬ ∃ r, s = '4' :: r) ∧
    (∀ w, packageBinary b = .ok w ↔ w = .binary b ∧ ∃ r, b = 4 :: r) ∧
    (packageBinary b = .panic ↔ ¬ ∃ r, b = 4 :: r) := by
  refine ⟨⟨_, rfl, .text s⟩, ⟨_, rfl, .binary b⟩, .ping [], .pong [], ?_, ?_, ?_, ?_⟩
  · intro w
    cases s with
    | nil => simp [packageMessage]
    | cons c r => by_cases h : c = '4' <;> simp [packageMessage, h, eq_comm]
  · cases s with
    | nil => simp [packageMessage]
    | cons c r => by_cases h : c = '4' <;> simp [packageMessage, h]
  · intro w
    cases b with
    | nil => simp [packageBinary]
    | cons c r => by_cases h : c = 4 <;> simp [packageBinary, h, eq_comm]
  · cases b with
    | nil => simp [packageBinary]
    | cons c r => by_cases h : c = 4 <;> simp [packageBinary, h]

-- non-vacuity: an open packet with other members, in another order; then a binary message
example : ∃ w, [Ws.text "0{\"pingInterval\":25000,\"upgrades\":[],\"sid\":\"x\\u0041\",\"pingTimeout\":5000}".toList][0]? = some w ∧
    Wire w (.opened ⟨['x', 'A'], 5000, 25000⟩) ∧ ¬ CloseBefore [Ws.text "0{\"pingInterval\":25000,\"upgrades\":[],\"sid\":\"x\\u0041\",\"pingTimeout\":5000}".toList] 0 ∧
    InTime (OpenBefore [Ws.text "0{\"pingInterval\":25000,\"upgrades\":[],\"sid\":\"x\\u0041\",\"pingTimeout\":5000}".toList] 0)
      (.opened ⟨['x', 'A'], 5000, 25000⟩) :=
  (C50_decoded _ 0 _).1 ⟨.opened ⟨['x', 'A'], 5000, 25000⟩, by unfold DecodedAt; decide +kernel, .opened _⟩
example : DecodedAt [.text openText, .binary [4, 7, 8]] 1 (.message (.binary ⟨[4, 7, 8], 1, 3⟩)) ∧
    (OwnedSubslice.mk ([4, 7, 8] : Bytes) 1 3).deref = some [7, 8] := by
  unfold DecodedAt; decide +kernel
-- a member twice is an error
example : (connResults [.text "0{\"sid\":\"a\",\"sid\":\"b\",\"pingTimeout\":1,\"pingInterval\":2}".toList])[0]? =
    some (.err .jsonError) := by decide +kernel
example : (connResults [.text openText, .text ['1'], .text ['2']])[2]? = some (.err .messageAfterClose) := by
  decide +kernel

end SIO
