import Verif.Lemmas.Decode
import Verif.Lemmas.Regex
/-
`parse_text` against the declarative packet grammar.
-/
namespace SIO
open Spec

/-- Byte offset of the namespace part. -/
def nsPos (p : Parts) : Nat := 1 + blen (part ['-'] p.att)
/-- Byte offset of the id part. -/
def idPos (p : Parts) : Nat := nsPos p + blen (part [','] p.ns)
/-- Byte offset of the argument part. -/
def argsPos (p : Parts) : Nat := idPos p + blen (part [] p.id)

theorem caps_get1 (p : Parts) : (partsCaps p).get 1 = some (0, 1) := by
  obtain ⟨k, a, n, i, g⟩ := p
  cases a <;> cases n <;> cases i <;> cases g <;> rfl

theorem caps_get3 (p : Parts) : (partsCaps p).get 3 = p.att.map fun a => (1, 1 + blen a) := by
  obtain ⟨k, a, n, i, g⟩ := p
  cases a <;> cases n <;> cases i <;> cases g <;> rfl

theorem blen_one (c : Char) (h : c.utf8Size = 1) : blen [c] = 1 := by simp [h]

theorem caps_get5 (p : Parts) : (partsCaps p).get 5 = p.ns.map fun n => (nsPos p, nsPos p + blen n) := by
  obtain ⟨k, a, n, i, g⟩ := p
  have h1 : ('-' : Char).utf8Size = 1 := rfl
  cases a <;> cases n <;> cases i <;> cases g <;>
    simp [partsCaps, capsNs, capOpt, Caps.get, nsPos, part, List.lookup, h1] <;> omega

theorem caps_get6 (p : Parts) : (partsCaps p).get 6 = p.id.map fun n => (idPos p, idPos p + blen n) := by
  obtain ⟨k, a, n, i, g⟩ := p
  have h1 : ('-' : Char).utf8Size = 1 := rfl
  have h2 : (',' : Char).utf8Size = 1 := rfl
  cases a <;> cases n <;> cases i <;> cases g <;>
    simp [partsCaps, capsNs, capOpt, Caps.get, nsPos, idPos, part, List.lookup, h1, h2] <;> omega

theorem caps_get7 (p : Parts) : (partsCaps p).get 7 = p.args.map fun n => (argsPos p, argsPos p + blen n) := by
  obtain ⟨k, a, n, i, g⟩ := p
  have h1 : ('-' : Char).utf8Size = 1 := rfl
  have h2 : (',' : Char).utf8Size = 1 := rfl
  cases a <;> cases n <;> cases i <;> cases g <;>
    simp [partsCaps, capsNs, capOpt, Caps.get, nsPos, idPos, argsPos, part, List.lookup, h1, h2] <;> omega

theorem slice_kind {p : Parts} (hp : p.Wf) : sliceB p.text 0 1 = some [p.kind] := by
  have := kind_size hp.kind
  exact sliceB_mid' [] [p.kind] _ 0 1 rfl (by simp [this])

theorem slice_att {p : Parts} (hp : p.Wf) {a : Str} (h : p.att = some a) :
    sliceB p.text 1 (1 + blen a) = some a := by
  have := kind_size hp.kind
  rw [show p.text = [p.kind] ++ (a ++ ('-' :: (part [','] p.ns ++ (part [] p.id ++ part [] p.args)))) by
    simp [Parts.text, h, part]]
  apply sliceB_mid' <;> simp [this]

theorem slice_ns {p : Parts} (hp : p.Wf) {a : Str} (h : p.ns = some a) :
    sliceB p.text (nsPos p) (nsPos p + blen a) = some a := by
  have := kind_size hp.kind
  rw [show p.text = ([p.kind] ++ part ['-'] p.att) ++ (a ++ (',' :: (part [] p.id ++ part [] p.args))) by
    simp [Parts.text, h, part]]
  apply sliceB_mid' <;> simp [this, nsPos]

theorem slice_id {p : Parts} (hp : p.Wf) {a : Str} (h : p.id = some a) :
    sliceB p.text (idPos p) (idPos p + blen a) = some a := by
  have := kind_size hp.kind
  rw [show p.text = ([p.kind] ++ part ['-'] p.att ++ part [','] p.ns) ++ (a ++ part [] p.args) by
    simp [Parts.text, h, part]]
  apply sliceB_mid' <;> simp [this, nsPos, idPos] <;> omega

theorem text_args {p : Parts} {a : Str} (h : p.args = some a) :
    p.text = ([p.kind] ++ part ['-'] p.att ++ part [','] p.ns ++ part [] p.id) ++ (a ++ []) := by
  simp [Parts.text, h, part]

theorem argsPos_eq {p : Parts} (hp : p.Wf) :
    argsPos p = blen ([p.kind] ++ part ['-'] p.att ++ part [','] p.ns ++ part [] p.id) := by
  have := kind_size hp.kind
  simp [this, nsPos, idPos, argsPos]
  omega

theorem slice_args {p : Parts} (hp : p.Wf) {a : Str} (h : p.args = some a) :
    sliceB p.text (argsPos p) (argsPos p + blen a) = some a := by
  rw [text_args h]
  apply sliceB_mid' <;> rw [argsPos_eq hp]

theorem sliceB_shift {p : Parts} (hp : p.Wf) {g : Str} (h : p.args = some g) (a b : Nat)
    (hb : b ≤ blen g) : sliceB p.text (a + argsPos p) (b + argsPos p) = sliceB g a b := by
  rw [text_args h, argsPos_eq hp, Nat.add_comm a, Nat.add_comm b]
  exact sliceB_inner _ _ _ _ _ hb

/-- The protocol kind with a given digit. -/
theorem kindOfDigit_iff (c : Char) (k : PKind) : kindOfDigit c = .ok k ↔ k.digit = c := by
  unfold kindOfDigit
  constructor
  · intro h
    repeat' split at h
    all_goals first | (cases h; rfl) | (simp_all; subst h; rfl) | simp at h
  · rintro rfl
    cases k <;> rfl

theorem kindOfDigit_ok {c : Char} (h : c ∈ ['0', '1', '2', '3', '5', '6']) : ∃ k, kindOfDigit c = .ok k := by
  simp at h
  rcases h with rfl | rfl | rfl | rfl | rfl | rfl <;> exact ⟨_, rfl⟩

theorem isDec_canon {s : Str} (h : IsDec s) : canonDec s = true := by
  rcases h with rfl | ⟨c, cs, rfl, hc, h0, hs⟩
  · rfl
  · exact canonDec_cons hc h0 hs

/-- Value of an optional decimal part. -/
def optVal (o : Option Str) : Option Nat := o.map decVal

/-- The optional decimal part fits in 64 bits. -/
def optFits (o : Option Str) : Prop := ∀ x, o = some x → decVal x < u64Bound

theorem parseU64_dec {s : Str} (h : IsDec s) :
    parseU64 s = if decVal s < u64Bound then some (decVal s) else none := by
  have hd := natDec_decVal (isDec_canon h)
  by_cases hb : decVal s < u64Bound
  · rw [if_pos hb, ← parseU64_natDec hb, hd]
  · rw [if_neg hb]
    simp [parseU64, hb]

theorem capU64_some {s t : Str} {r : Rng} (ht : sliceB s r.1 r.2 = some t) (hd : IsDec t) :
    capU64 s (some r) = if decVal t < u64Bound then .ok (some (decVal t)) else .panic := by
  simp only [capU64, capStr, ht, Res.unwrap_some, Res.bind_ok, parseU64_dec hd]
  by_cases h : decVal t < u64Bound
  · simp [h]
  · simp [h]

theorem capU64_fits {s : Str} {o : Option Str} {f : Str → Rng} (hf : ∀ t, o = some t → sliceB s (f t).1 (f t).2 = some t)
    (hd : ∀ t, o = some t → IsDec t) (h : optFits o) : capU64 s (o.map f) = .ok (optVal o) := by
  cases o with
  | none => rfl
  | some t =>
    simp only [Option.map, optVal]
    rw [capU64_some (hf t rfl) (hd t rfl), if_pos (h t rfl)]

theorem capU64_overflow {s : Str} {o : Option Str} {f : Str → Rng} (hf : ∀ t, o = some t → sliceB s (f t).1 (f t).2 = some t)
    (hd : ∀ t, o = some t → IsDec t) (h : ¬ optFits o) : capU64 s (o.map f) = .panic := by
  cases o with
  | none => simp [optFits] at h
  | some t =>
    simp [optFits] at h
    simp only [Option.map]
    rw [capU64_some (hf t rfl) (hd t rfl), if_neg (by omega)]

/-- The ranges designate the optional part. -/
def RngOf (s : Str) (r : Option Rng) (o : Option Str) : Prop :=
  r.map (fun x => sliceB s x.1 x.2) = o.map some

/-- The ranges designate the parts, in order. -/
def RngsOf (s : Str) (rs : List Rng) (vs : List Str) : Prop :=
  rs.map (fun x => sliceB s x.1 x.2) = vs.map some

/-- Texts of the elements of an optional argument part (none if it is absent). -/
def ArgTexts : Option Str → List Str → Prop
  | none, vs => vs = []
  | some g, vs => IsArrayText vs g

theorem map_slice_shift {p : Parts} (hp : p.Wf) {g : Str} (h : p.args = some g) (rs : List Rng) (vs : List Str)
    (hs : rs.map (fun x => sliceB g x.1 x.2) = vs.map some) :
    (rs.map fun (x : Rng) => (x.1 + argsPos p, x.2 + argsPos p)).map (fun x => sliceB p.text x.1 x.2) = vs.map some := by
  rw [List.map_map, ← hs]
  apply List.map_congr_left
  intro x hx
  have : sliceB g x.1 x.2 ∈ vs.map some := by
    rw [← hs]; exact List.mem_map_of_mem (f := fun x : Rng => sliceB g x.1 x.2) hx
  obtain ⟨v, _, hv⟩ := List.mem_map.1 this
  have := sliceB_len hv.symm
  exact sliceB_shift hp h _ _ this.2.2

/-- Everything `parse_text` can do. -/
inductive ParseTextOut (text : OwnedSubslice Str) (s : Str) : Res SErr Parse → Prop where
  | bad : (∀ p : Parts, p.Wf → p.text ≠ s) → ParseTextOut text s (.err (.invalidMessage s))
  | overflow (p : Parts) : p.Wf → p.text = s → p.Longest → (¬ optFits p.att ∨ ¬ optFits p.id) →
      ParseTextOut text s .panic
  | json (p : Parts) (g : Str) : p.Wf → p.text = s → p.Longest → optFits p.att → optFits p.id →
      p.args = some g → (¬ ∃ vs, IsArrayText vs g) → ParseTextOut text s (.err (.invalidDataJson g))
  | ok (p : Parts) (k : PKind) (ns : Option Rng) (rs : List Rng) (vs : List Str) :
      p.Wf → p.text = s → p.Longest → optFits p.att → optFits p.id → k.digit = p.kind →
      RngOf s ns p.ns → ArgTexts p.args vs → RngsOf s rs vs →
      ParseTextOut text s (.ok ⟨text, k, optVal p.att, ns, optVal p.id, rs⟩)

theorem parseText_out {text : OwnedSubslice Str} {s : Str} (hs : text.deref = some s) :
    ParseTextOut text s (parseText text) := by
  unfold parseText
  simp only [hs, Res.unwrap_some, Res.bind_ok]
  cases hc : deserializeRe.captures s with
  | none =>
    refine .bad fun p hp he => ?_
    rw [← he] at hc
    exact captures_complete hp hc
  | some caps =>
    obtain ⟨p, hp, rfl, hl, rfl⟩ := captures_some hc
    obtain ⟨k, hk⟩ := kindOfDigit_ok hp.kind
    simp only [caps_get1, caps_get3, caps_get5, caps_get6, caps_get7, Res.bind_ok, capStr,
      slice_kind hp, Res.unwrap_some, List.head?_cons, hk, Res.pure_eq]
    by_cases h3 : optFits p.att
    · rw [capU64_fits (fun t ht => slice_att hp ht) hp.att h3, Res.bind_ok]
      by_cases h6 : optFits p.id
      · rw [capU64_fits (fun t ht => slice_id hp ht) hp.id h6, Res.bind_ok]
        have hns : RngOf p.text (p.ns.map fun n => (nsPos p, nsPos p + blen n)) p.ns := by
          unfold RngOf
          cases hn : p.ns with
          | none => rfl
          | some n => simp [slice_ns hp hn]
        cases hg : p.args with
        | none =>
          exact .ok p k _ _ [] hp rfl hl h3 h6 ((kindOfDigit_iff _ _).1 hk) hns (by rw [hg]; rfl) rfl
        | some g =>
          simp only [Option.map, capArgs, capStr, slice_args hp hg, Res.unwrap_some, Res.bind_ok, Res.pure_eq]
          by_cases hv : ∃ vs, IsArrayText vs g
          · obtain ⟨vs, hv⟩ := hv
            obtain ⟨rs, hr, hsl⟩ := parseArgs_complete hv
            rw [hr]
            exact .ok p k _ _ vs hp rfl hl h3 h6 ((kindOfDigit_iff _ _).1 hk) hns (by rw [hg]; exact hv)
              (map_slice_shift hp hg rs vs hsl)
          · rw [parseArgs_err hv]
            exact .json p g hp rfl hl h3 h6 hg hv
      · rw [capU64_overflow (fun t ht => slice_id hp ht) hp.id h6]
        exact .overflow p hp rfl hl (Or.inr h6)
    · rw [capU64_overflow (fun t ht => slice_att hp ht) hp.att h3]
      exact .overflow p hp rfl hl (Or.inl h3)

end SIO
