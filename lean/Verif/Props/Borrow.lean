import Verif.Lemmas.Borrow
import Verif.Props.Deserialize
/-
C60: reading arguments into types that borrow from the packet.
-/
namespace SIO
open Spec

/-- C60: a target that borrows text or bytes from the packet is read exactly if the owned target
is, and the argument has nothing at the borrowed places that would have to be decoded first: no
string with escapes, and no array of numbers for bytes.  The value is the same. -/
theorem C60_owned (x : Ext) (s : Str) (ms : List EMsg) (a : Arg) (h : ArgOf s ms a) :
    ∃ t, IsVal t a.arg ∧ ∀ (ty : Ty) (v : DVal),
      a.deserialize x ty = .ok v ↔ Borrows ty t ∧ a.deserialize x (owned ty) = .ok v := by
  obtain ⟨t, bs, ht, hb, hp⟩ := argOf_spec h
  refine ⟨t, ht, fun ty v => ?_⟩
  have hok : ∀ (o : Option DVal), Res.ofOption (AErr.jsonDeError a.arg) o = .ok v ↔ o = some v := by
    intro o
    cases o <;> simp [Res.ofOption]
  unfold Arg.deserialize
  rw [allSome_deref hb]
  simp only
  split
  · simp only [hok, fromStrA_text (isVal_text ht), readPart_owned]
    rcases readPart_borrow ty t with h | ⟨h1, h2⟩
    · rw [h]
      exact deA_borrow x bs ty 128 t ⟨_, ht⟩ v
    · simp [h1 t, h2]
  · simp only [hok, fromStr_text (isVal_text ht)]
    exact de_borrow x ty 128 t ⟨_, ht⟩ v

/-- C60, for text: what is borrowed is the text of the argument between the quotes, or an
attachment that is the text in UTF-8; nothing else can be borrowed as text. -/
theorem C60_text (x : Ext) (s : Str) (ms : List EMsg) (a : Arg) (h : ArgOf s ms a) :
    ∃ bs : List Bytes, Payloads ms (bs.map Payload.binary) ∧ ∀ v : DVal, a.deserialize x .bstr = .ok v ↔
      (∃ raw, IsVal (.str raw) a.arg ∧ '\\' ∉ raw ∧ v = .str raw) ∨
      ∃ z i text, IsVal (.obj [(phKey, .bool z), (numKey, .num (decimal i))]) a.arg ∧ i < 2 ^ 64 ∧
        bs[i]? = some (text.flatMap String.utf8EncodeChar) ∧ v = .str text := by
  obtain ⟨t, ht, hO⟩ := C60_owned x s ms a h
  obtain ⟨t', bs, ht', hb, hp⟩ := argOf_spec h
  refine ⟨bs, hp, fun v => ?_⟩
  have hs := deserialize_str (x := x) ht' hb
  have hn : a.deserialize x .str = .ok v ↔ ∃ name, NameOf a.arg bs name ∧ v = .str name := by
    rcases hs with ⟨name, hn, he⟩ | ⟨hn, he⟩
    · rw [he]
      constructor
      · intro h
        cases h
        exact ⟨name, hn, rfl⟩
      · rintro ⟨name', hn', rfl⟩
        rw [nameOf_unique hn hn']
    · rw [he]
      constructor
      · intro h
        cases h
      · rintro ⟨name', hn', _⟩
        exact absurd hn' (hn name')
  rw [hO .bstr v, show owned .bstr = .str from by simp only [owned], hn]
  clear hn
  simp only [Borrows]
  constructor
  · rintro ⟨hp, name, hn, rfl⟩
    cases hn with
    | string raw h1 h2 =>
      have := isVal_unique ht h1
      subst this
      refine .inl ⟨raw, h1, hp raw rfl, ?_⟩
      rw [SIO.StrDenotes.unique h2 (plain_denotes h1.2 (hp raw rfl))]
    | attachment z i h1 h2 h3 => exact .inr ⟨z, i, name, h1, h2, h3, rfl⟩
  · rintro (⟨raw, h1, h2, rfl⟩ | ⟨z, i, text, h1, h2, h3, rfl⟩)
    · have := isVal_unique ht h1
      subst this
      refine ⟨fun r hr => ?_, raw, .string raw h1 (plain_denotes h1.2 h2), rfl⟩
      cases hr
      exact h2
    · have := isVal_unique ht h1
      subst this
      exact ⟨fun r hr => (by cases hr), text, .attachment z i h1 h2 h3, rfl⟩

/-- C60, for bytes: what is borrowed is an attachment, unchanged, or the bytes of the text of the
argument between the quotes; nothing else can be borrowed as bytes. -/
theorem C60_bytes (x : Ext) (s : Str) (ms : List EMsg) (a : Arg) (h : ArgOf s ms a) :
    ∃ bs : List Bytes, Payloads ms (bs.map Payload.binary) ∧ ∀ v : DVal, a.deserialize x .bbytes = .ok v ↔
      (∃ raw, IsVal (.str raw) a.arg ∧ '\\' ∉ raw ∧ v = .bytes (raw.flatMap String.utf8EncodeChar)) ∨
      ∃ z i b, IsVal (.obj [(phKey, .bool z), (numKey, .num (decimal i))]) a.arg ∧ i < 2 ^ 64 ∧ bs[i]? = some b ∧
        v = .bytes b := by
  obtain ⟨t, bs, ht, hb, hp⟩ := argOf_spec h
  refine ⟨bs, hp, fun v => ?_⟩
  have hok : ∀ (o : Option DVal), Res.ofOption (AErr.jsonDeError a.arg) o = .ok v ↔ o = some v := by
    intro o
    cases o <;> simp [Res.ofOption]
  have hstr : ∀ raw, t = .str raw → ((unescaped t).map (fun s => DVal.bytes (utf8Bytes s)) = some v ↔
      ∃ raw, IsVal (.str raw) a.arg ∧ '\\' ∉ raw ∧ v = .bytes (raw.flatMap String.utf8EncodeChar)) := by
    rintro raw rfl
    simp only [unescaped]
    constructor
    · split
      · simp
      · rename_i hn
        intro h
        simp only [Option.map_some, Option.some.injEq] at h
        exact ⟨raw, ht, hn, h.symm⟩
    · rintro ⟨raw', h1, h2, rfl⟩
      have := isVal_unique ht h1
      simp only [JTree.str.injEq] at this
      subst this
      simp [h2, utf8Bytes]
  have hnot : (∀ raw, t ≠ .str raw) →
      ¬ ∃ raw, IsVal (.str raw) a.arg ∧ '\\' ∉ raw ∧ v = .bytes (raw.flatMap String.utf8EncodeChar) := by
    rintro hn ⟨raw, h1, _⟩
    exact hn raw (isVal_unique ht h1)
  have hnob : (∀ kts, t ≠ .obj kts) → ¬ ∃ z i b, IsVal (.obj [(phKey, .bool z), (numKey, .num (decimal i))]) a.arg ∧
      i < 2 ^ 64 ∧ bs[i]? = some b ∧ v = .bytes b := by
    rintro hn ⟨z, i, b, h1, _⟩
    exact hn _ (isVal_unique ht h1)
  unfold Arg.deserialize
  rw [allSome_deref hb]
  simp only
  split
  · simp only [hok, fromStrA_text (isVal_text ht), readPart]
    cases t with
    | str raw =>
      simp only [deA]
      rw [hstr raw rfl]
      simp only [hnob (by simp), or_false]
    | obj kts =>
      simp only [hnot (by simp), false_or, deA, enter, if_neg (show ¬ (128 ≤ 1) by decide)]
      constructor
      · intro h
        split at h
        · rename_i b hv
          obtain ⟨z, i, rfl, hi, hbi⟩ := (mapView_iff ht b).1 hv
          simp only [Option.some.injEq] at h
          exact ⟨z, i, b, ht, hi, hbi, h.symm⟩
        · simp at h
      · rintro ⟨z, i, b, h1, h2, h3, rfl⟩
        have := isVal_unique ht h1
        simp only [JTree.obj.injEq] at this
        rw [(mapView_iff (fin := x.fin) (bs := bs) ht b).2 ⟨z, i, this, h2, h3⟩]
    | _ =>
      simp only [deA, unescaped, Option.map_none, reduceCtorEq, false_iff]
      exact fun h => h.elim (hnot (by simp)) (hnob (by simp))
  · rename_i hn
    have hn : a.attachments = [] := Classical.byContradiction hn
    have : bs = [] := by
      rw [hn] at hb
      cases bs with
      | nil => rfl
      | cons b bs => simp at hb
    subst this
    simp only [hok, fromStr_text (isVal_text ht)]
    cases t with
    | str raw =>
      simp only [de]
      rw [hstr raw rfl]
      simp
    | _ => simp [de, unescaped, hnot]

/-! ### Examples -/

def borrowPair : Ty := .struct [("a".toList, .bstr), ("b".toList, .option .bbytes)]

-- the owned type, and an argument that can be borrowed from
example : owned borrowPair = .struct [("a".toList, .str), ("b".toList, .option .bytes)] := by simp [borrowPair, owned, ownedF]

example : Borrows borrowPair (.obj [("a".toList, .str "x".toList), ("c".toList, .str "\\n".toList)]) := by
  simp only [borrowPair, Borrows, BorrowsM]
  refine ⟨by simp, fun kts h => ?_⟩
  cases h
  refine ⟨fun kt hk hd => ?_, fun kt hk hd => ?_, trivial⟩
  all_goals
    simp only [List.mem_cons, List.not_mem_nil, or_false] at hk
    rcases hk with rfl | rfl
  · simp [PlainText]
  · exact absurd ((unescape_iff _ _).2 hd) (by decide +kernel)
  · exact absurd ((unescape_iff _ _).2 hd) (by decide +kernel)
  · exact absurd ((unescape_iff _ _).2 hd) (by decide +kernel)

/-- Whether a text is read with the two borrowed fields, and with owned ones, next to an attachment. -/
def borrowsText (bs : List Bytes) (s : String) : Bool × Bool :=
  ((fromStrA exExt bs borrowPair s.toList).isSome, (fromStrA exExt bs (owned borrowPair) s.toList).isSome)

-- both are read; only the owned one is; none is
example : borrowsText [[1]] "{\"a\":\"x\",\"b\":{\"_placeholder\":true,\"num\":0}}" = (true, true) := by decide +kernel
example : borrowsText [[1]] "{\"a\":\"\\n\"}" = (false, true) := by decide +kernel
example : borrowsText [[1]] "{\"a\":\"x\",\"b\":[1,2]}" = (false, true) := by decide +kernel
example : borrowsText [[1]] "{\"a\":1}" = (false, false) := by decide +kernel
-- text is borrowed from an attachment as well
example : borrowsText [[104, 105]] "{\"a\":{\"_placeholder\":true,\"num\":0}}" = (true, true) := by decide +kernel

-- non-vacuity: there are decoded packets with arguments to borrow from
example : ∃ s ms a, ArgOf s ms a ∧ a.deserialize exExt .bbytes = .ok (.bytes [7]) := by
  have h : (decodeAll "51-[{\"_placeholder\":true,\"num\":0}]".toList [[7]]).okWith (firstArg fun a =>
      (a.deserialize exExt .bbytes).okWith fun v => match v with
        | .bytes b => b == [7]
        | _ => false) = true := by decide +kernel
  obtain ⟨pk, hd, hf⟩ := Res.okWith_spec h
  obtain ⟨id, A, a, h1, h2, h3⟩ := firstArg_spec hf
  obtain ⟨v, hv, h4⟩ := Res.okWith_spec h3
  refine ⟨_, _, a, ⟨pk, A, 0, decodeAll_decoded hd, Or.inl ⟨id, h1⟩, h2⟩, ?_⟩
  rw [hv]
  split at h4
  · rw [beq_iff_eq.1 h4]
  · simp at h4

end SIO
