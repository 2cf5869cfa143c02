import Verif.Lemmas.Serialize
/-
What holds of the serializers for all values: they append attachments, never panic, and
write no newline.
-/
namespace SIO
open Spec

/-! ### No newline -/

/-- No newline in the text. -/
def NoNl (s : Str) : Prop := ∀ c ∈ s, c ≠ '\n'

theorem noNl_nil : NoNl [] := by simp [NoNl]

theorem NoNl.append {a b : Str} (ha : NoNl a) (hb : NoNl b) : NoNl (a ++ b) := by
  intro c hc
  rcases List.mem_append.1 hc with h | h
  · exact ha c h
  · exact hb c h

theorem NoNl.cons {c : Char} {b : Str} (hc : c ≠ '\n') (hb : NoNl b) : NoNl (c :: b) := by
  intro x hx
  rcases List.mem_cons.1 hx with h | h
  · rw [h]; exact hc
  · exact hb x h

theorem noNl_of_all {s : Str} (h : s.all (· ≠ '\n') = true) : NoNl s := by
  simpa [NoNl] using h

theorem noNl_digits {s : Str} (h : ∀ c ∈ s, c.isDigit = true) : NoNl s := by
  intro c hc he
  have := h c hc
  rw [he] at this
  revert this
  decide

theorem noNl_natDec (n : Nat) : NoNl (natDec n) := noNl_digits (natDec_digits n)

theorem noNl_intDec (i : Int) : NoNl (intDec i) := by
  unfold intDec
  split
  · exact (noNl_natDec _).cons (by decide)
  · exact noNl_natDec _

theorem hexChar_noNl {d : Nat} (h : d < 16) : hexChar d ≠ '\n' := by
  have : d = 0 ∨ d = 1 ∨ d = 2 ∨ d = 3 ∨ d = 4 ∨ d = 5 ∨ d = 6 ∨ d = 7 ∨ d = 8 ∨ d = 9 ∨ d = 10 ∨ d = 11 ∨
    d = 12 ∨ d = 13 ∨ d = 14 ∨ d = 15 := by omega
  rcases this with h | h | h | h | h | h | h | h | h | h | h | h | h | h | h | h <;> subst h <;> decide

theorem noNl_escapeChar (c : Char) : NoNl (escapeChar c) := by
  unfold escapeChar
  repeat' split
  all_goals first
    | exact noNl_of_all (by decide)
    | skip
  · rename_i h
    refine NoNl.cons (by decide) (NoNl.cons (by decide) (NoNl.cons (by decide) (NoNl.cons (by decide) ?_)))
    exact NoNl.cons (hexChar_noNl (by omega)) (NoNl.cons (hexChar_noNl (by omega)) noNl_nil)
  · exact NoNl.cons (by assumption) noNl_nil

theorem noNl_escape (s : Str) : NoNl (escape s) := by
  induction s with
  | nil => exact noNl_nil
  | cons c s ih => exact (noNl_escapeChar c).append ih

theorem noNl_jsonStr (s : Str) : NoNl (jsonStr s) :=
  NoNl.cons (by decide) ((noNl_escape s).append (noNl_of_all (by decide)))

theorem noNl_boolText (b : Bool) : NoNl (boolText b) := by cases b <;> exact noNl_of_all (by decide)

theorem noNl_bytesElems : ∀ b : Bytes, NoNl (bytesElems b)
  | [] => noNl_nil
  | [b] => noNl_natDec _
  | b :: b' :: bs => (noNl_natDec _).append (NoNl.cons (by decide) (noNl_bytesElems (b' :: bs)))

theorem noNl_isNum {s : Str} (h : IsNum s) : NoNl s := by
  obtain ⟨sign, int, frac, exp, rfl, hs, hi, hf, he⟩ := h
  refine NoNl.append ?_ (NoNl.append ?_ (NoNl.append ?_ ?_))
  · rcases hs with rfl | rfl <;> exact noNl_of_all (by decide)
  · rcases hi with rfl | ⟨c, cs, rfl, hc, _, hcs⟩
    · exact noNl_of_all (by decide)
    · apply noNl_digits
      intro x hx
      rcases List.mem_cons.1 hx with h | h
      · rw [h]; exact hc
      · exact hcs x h
  · rcases hf with rfl | ⟨d, rfl, _, hd⟩
    · exact noNl_nil
    · exact NoNl.cons (by decide) (noNl_digits hd)
  · rcases he with rfl | ⟨e, sg, d, rfl, h1, h2, _, hd⟩
    · exact noNl_nil
    · refine NoNl.cons (by rcases h1 with rfl | rfl <;> decide) (NoNl.append ?_ (noNl_digits hd))
      rcases h2 with rfl | rfl | rfl <;> exact noNl_of_all (by decide)

/-- The plain serializer call writes no newline. -/
def NlW (w : W) : Prop := NoNl w.1

theorem NlW.app {a b : W} (ha : NlW a) (hb : NlW b) : NlW (W.app a b) := by
  unfold W.app
  split
  · exact NoNl.append ha hb
  · exact ha

theorem NlW.lit {s : Str} (h : NoNl s) : NlW (W.lit s) := h

theorem nlW_serKey : ∀ k : SVal, NlW (serKey k)
  | .bool _ | .u8 _ | .int _ | .float (some _) | .char _ | .str _ | .unitVariant _ => noNl_jsonStr _
  | .newtype v => by simpa [serKey] using nlW_serKey v
  | .some v => by simpa [serKey] using nlW_serKey v
  | .float none | .bytes _ | .none | .unit | .newtypeVariant _ _ | .seq _ | .tuple _ | .tupleVariant _ _
  | .map _ | .struct _ | .structVariant _ _ | .fail => noNl_nil

theorem noNl_head (n : Str) {r : Str} (hr : NoNl r) : NoNl ('{' :: (jsonStr n ++ r)) :=
  NoNl.cons (by decide) ((noNl_jsonStr n).append hr)

theorem noNl_sep (first : Bool) : NoNl (if first then [] else [',']) := by
  cases first <;> exact noNl_of_all (by decide)

mutual
theorem nlW_serJ : ∀ v : SVal, v.FloatsOk → NlW (serJ v)
  | .bool b, _ => noNl_boolText b
  | .u8 n, _ => noNl_natDec _
  | .int i, _ => noNl_intDec i
  | .float none, _ => noNl_of_all (by decide)
  | .float (some l), h => noNl_isNum (s := l) (by simpa [SVal.FloatsOk] using h)
  | .char c, _ => noNl_jsonStr _
  | .str s, _ => noNl_jsonStr _
  | .bytes b, _ => NoNl.cons (by decide) ((noNl_bytesElems b).append (noNl_of_all (by decide)))
  | .none, _ => noNl_of_all (by decide)
  | .some v, h => by simpa [serJ] using nlW_serJ v (by simpa [SVal.FloatsOk] using h)
  | .unit, _ => noNl_of_all (by decide)
  | .unitVariant n, _ => noNl_jsonStr _
  | .newtype v, h => by simpa [serJ] using nlW_serJ v (by simpa [SVal.FloatsOk] using h)
  | .newtypeVariant n v, h => by
    rw [serJ]
    exact (NlW.lit (noNl_head n (noNl_of_all (by decide)))).app
      ((nlW_serJ v (by simpa [SVal.FloatsOk] using h)).app (NlW.lit (noNl_of_all (by decide))))
  | .seq vs, h => by
    rw [serJ]
    exact (NlW.lit (noNl_of_all (by decide))).app
      ((nlW_serElems vs (by simpa [SVal.FloatsOk] using h) true).app (NlW.lit (noNl_of_all (by decide))))
  | .tuple vs, h => by
    rw [serJ]
    exact (NlW.lit (noNl_of_all (by decide))).app
      ((nlW_serElems vs (by simpa [SVal.FloatsOk] using h) true).app (NlW.lit (noNl_of_all (by decide))))
  | .tupleVariant n vs, h => by
    rw [serJ]
    exact (NlW.lit (noNl_head n (noNl_of_all (by decide)))).app
      ((nlW_serElems vs (by simpa [SVal.FloatsOk] using h) true).app (NlW.lit (noNl_of_all (by decide))))
  | .map kvs, h => by
    rw [serJ]
    exact (NlW.lit (noNl_of_all (by decide))).app
      ((nlW_serEntries kvs (by simpa [SVal.FloatsOk] using h) true).app (NlW.lit (noNl_of_all (by decide))))
  | .struct fs, h => by
    rw [serJ]
    exact (NlW.lit (noNl_of_all (by decide))).app
      ((nlW_serFields fs (by simpa [SVal.FloatsOk] using h) true).app (NlW.lit (noNl_of_all (by decide))))
  | .structVariant n fs, h => by
    rw [serJ]
    exact (NlW.lit (noNl_head n (noNl_of_all (by decide)))).app
      ((nlW_serFields fs (by simpa [SVal.FloatsOk] using h) true).app (NlW.lit (noNl_of_all (by decide))))
  | .fail, _ => noNl_nil
theorem nlW_serElems : ∀ vs : List SVal, FloatsOkL vs → ∀ first, NlW (serElems first vs)
  | [], _, _ => noNl_nil
  | v :: vs, h, first => by
    obtain ⟨hv, hvs⟩ : v.FloatsOk ∧ FloatsOkL vs := by simpa [FloatsOkL] using h
    rw [serElems]
    exact (NlW.lit (noNl_sep first)).app ((nlW_serJ v hv).app (nlW_serElems vs hvs false))
theorem nlW_serEntries : ∀ kvs : List (SVal × SVal), FloatsOkM kvs → ∀ first, NlW (serEntries first kvs)
  | [], _, _ => noNl_nil
  | (k, v) :: kvs, h, first => by
    obtain ⟨hv, hvs⟩ : v.FloatsOk ∧ FloatsOkM kvs := by simpa [FloatsOkM] using h
    rw [serEntries]
    exact (NlW.lit (noNl_sep first)).app ((nlW_serKey k).app ((NlW.lit (noNl_of_all (by decide))).app
      ((nlW_serJ v hv).app (nlW_serEntries kvs hvs false))))
theorem nlW_serFields : ∀ kvs : List (Str × SVal), FloatsOkF kvs → ∀ first, NlW (serFields first kvs)
  | [], _, _ => noNl_nil
  | (k, v) :: kvs, h, first => by
    obtain ⟨hv, hvs⟩ : v.FloatsOk ∧ FloatsOkF kvs := by simpa [FloatsOkF] using h
    rw [serFields]
    exact (NlW.lit (noNl_sep first)).app ((NlW.lit ((noNl_jsonStr k).append (noNl_of_all (by decide)))).app
      ((nlW_serJ v hv).app (nlW_serFields kvs hvs false)))
end

/-- The call writes no newline, whatever the state of the cell. -/
def NlB (m : BM) : Prop := ∀ c, NoNl (m c).out

theorem NlB.app {a b : BM} (ha : NlB a) (hb : NlB b) : NlB (BM.app a b) := by
  intro c
  unfold BM.app
  split
  · exact NoNl.append (ha c) (hb _)
  · exact ha c

theorem NlB.lift {w : W} (h : NlW w) : NlB (BM.lift w) := fun _ => h

theorem NlB.lit {s : Str} (h : NoNl s) : NlB (BM.lit s) := fun _ => h

theorem nlB_push (mk : Res Empty Ws) {plain : SVal → W} (h : ∀ n, NlW (plain (placeholder n))) :
    NlB (pushPlaceholder mk plain) := by
  intro c
  unfold pushPlaceholder
  split
  · exact noNl_nil
  · split
    · exact h _
    · exact noNl_nil

theorem nlB_pushJ (mk : Res Empty Ws) : NlB (pushPlaceholder mk serJ) :=
  nlB_push mk fun n => nlW_serJ _ (by simp [placeholder, SVal.FloatsOk, FloatsOkF])

theorem nlB_serKeySeqB : ∀ (vs : List SVal) (d : Bytes), NlB (serKeySeqB d vs)
  | [], d => by
    rw [serKeySeqB]
    split
    · exact NlB.lift noNl_nil
    · exact nlB_push _ fun n => nlW_serKey _
  | v :: vs, d => by
    rw [serKeySeqB]
    split
    · exact nlB_serKeySeqB vs _
    · exact NlB.lift noNl_nil

theorem nlB_serKeyB : ∀ k : SVal, NlB (serKeyB k)
  | .bytes b => nlB_push _ fun n => nlW_serKey _
  | .seq vs => nlB_serKeySeqB vs []
  | .newtype v => by simpa [serKeyB] using nlB_serKeyB v
  | .some v => by simpa [serKeyB] using nlB_serKeyB v
  | .bool _ | .u8 _ | .int _ | .float _ | .char _ | .str _ | .unitVariant _
  | .none | .unit | .newtypeVariant _ _ | .tuple _ | .tupleVariant _ _
  | .map _ | .struct _ | .structVariant _ _ | .fail => NlB.lift (nlW_serKey _)

mutual
theorem nlB_serB : ∀ v : SVal, v.FloatsOk → NlB (serB v)
  | .bytes b, _ => nlB_pushJ _
  | .seq vs, h => by
    rw [serB]
    exact nlB_serSeqB vs (by simpa [SVal.FloatsOk] using h) []
  | .some v, h => by simpa [serB] using nlB_serB v (by simpa [SVal.FloatsOk] using h)
  | .newtype v, h => by simpa [serB] using nlB_serB v (by simpa [SVal.FloatsOk] using h)
  | .newtypeVariant n v, h => by
    rw [serB]
    exact (NlB.lit (noNl_head n (noNl_of_all (by decide)))).app
      ((nlB_serB v (by simpa [SVal.FloatsOk] using h)).app (NlB.lit (noNl_of_all (by decide))))
  | .tuple vs, h => by
    rw [serB]
    exact (NlB.lit (noNl_of_all (by decide))).app
      ((nlB_serElemsB vs (by simpa [SVal.FloatsOk] using h) true).app (NlB.lit (noNl_of_all (by decide))))
  | .tupleVariant n vs, h => by
    rw [serB]
    exact (NlB.lit (noNl_head n (noNl_of_all (by decide)))).app
      ((nlB_serElemsB vs (by simpa [SVal.FloatsOk] using h) true).app (NlB.lit (noNl_of_all (by decide))))
  | .map kvs, h => by
    rw [serB]
    exact (NlB.lit (noNl_of_all (by decide))).app
      ((nlB_serEntriesB kvs (by simpa [SVal.FloatsOk] using h) true).app (NlB.lit (noNl_of_all (by decide))))
  | .struct fs, h => by
    rw [serB]
    exact (NlB.lit (noNl_of_all (by decide))).app
      ((nlB_serFieldsB fs (by simpa [SVal.FloatsOk] using h) true).app (NlB.lit (noNl_of_all (by decide))))
  | .structVariant n fs, h => by
    rw [serB]
    exact (NlB.lit (noNl_head n (noNl_of_all (by decide)))).app
      ((nlB_serFieldsB fs (by simpa [SVal.FloatsOk] using h) true).app (NlB.lit (noNl_of_all (by decide))))
  | .bool b, h => NlB.lift (nlW_serJ _ h)
  | .u8 n, h => NlB.lift (nlW_serJ _ h)
  | .int i, h => NlB.lift (nlW_serJ _ h)
  | .float l, h => NlB.lift (nlW_serJ _ h)
  | .char c, h => NlB.lift (nlW_serJ _ h)
  | .str s, h => NlB.lift (nlW_serJ _ h)
  | .none, h => NlB.lift (nlW_serJ _ h)
  | .unit, h => NlB.lift (nlW_serJ _ h)
  | .unitVariant n, h => NlB.lift (nlW_serJ _ h)
  | .fail, h => NlB.lift (nlW_serJ _ h)
theorem nlB_serSeqB : ∀ vs : List SVal, FloatsOkL vs → ∀ d, NlB (serSeqB d vs)
  | [], _, d => by
    rw [serSeqB]
    unfold endBytes
    split
    · exact NlB.lit (noNl_of_all (by decide))
    · exact nlB_pushJ _
  | v :: vs, h, d => by
    obtain ⟨hv, hvs⟩ : v.FloatsOk ∧ FloatsOkL vs := by simpa [FloatsOkL] using h
    rw [serSeqB]
    split
    · exact nlB_serSeqB vs hvs _
    · refine (NlB.lit (NoNl.cons (by decide) (noNl_bytesElems d))).app ((NlB.lit ?_).app
        ((nlB_serB v hv).app ((nlB_serElemsB vs hvs false).app (NlB.lit (noNl_of_all (by decide))))))
      split <;> exact noNl_of_all (by decide)
theorem nlB_serElemsB : ∀ vs : List SVal, FloatsOkL vs → ∀ first, NlB (serElemsB first vs)
  | [], _, _ => NlB.lit noNl_nil
  | v :: vs, h, first => by
    obtain ⟨hv, hvs⟩ : v.FloatsOk ∧ FloatsOkL vs := by simpa [FloatsOkL] using h
    rw [serElemsB]
    exact (NlB.lit (noNl_sep first)).app ((nlB_serB v hv).app (nlB_serElemsB vs hvs false))
theorem nlB_serEntriesB : ∀ kvs : List (SVal × SVal), FloatsOkM kvs → ∀ first, NlB (serEntriesB first kvs)
  | [], _, _ => NlB.lit noNl_nil
  | (k, v) :: kvs, h, first => by
    obtain ⟨hv, hvs⟩ : v.FloatsOk ∧ FloatsOkM kvs := by simpa [FloatsOkM] using h
    rw [serEntriesB]
    exact (NlB.lit (noNl_sep first)).app ((nlB_serKeyB k).app ((NlB.lit (noNl_of_all (by decide))).app
      ((nlB_serB v hv).app (nlB_serEntriesB kvs hvs false))))
theorem nlB_serFieldsB : ∀ kvs : List (Str × SVal), FloatsOkF kvs → ∀ first, NlB (serFieldsB first kvs)
  | [], _, _ => NlB.lit noNl_nil
  | (k, v) :: kvs, h, first => by
    obtain ⟨hv, hvs⟩ : v.FloatsOk ∧ FloatsOkF kvs := by simpa [FloatsOkF] using h
    rw [serFieldsB]
    exact (NlB.lit (noNl_sep first)).app ((NlB.lit ((noNl_jsonStr k).append (noNl_of_all (by decide)))).app
      ((nlB_serB v hv).app (nlB_serFieldsB kvs hvs false)))
end

/-! ### Attachments are appended, no panic -/

/-- Whatever the value: attachments are appended, the cell is not left borrowed, no panic. -/
def GoodB (m : BM) : Prop :=
  ∀ ms, ∃ (s : Str) (bl : List Bytes) (f : End), m ⟨ms, false⟩ = ⟨s, ⟨ms ++ bl.map attMsg, false⟩, f⟩ ∧ f ≠ .panic

theorem GoodB.lift (w : W) : GoodB (BM.lift w) := by
  intro ms
  refine ⟨w.1, [], if w.2 then .ok else .err, by simp [BM.lift], ?_⟩
  split <;> simp

theorem GoodB.lit (s : Str) : GoodB (BM.lit s) := GoodB.lift _

theorem GoodB.app {a b : BM} (ha : GoodB a) (hb : GoodB b) : GoodB (BM.app a b) := by
  intro ms
  obtain ⟨s1, l1, f1, h1, hf1⟩ := ha ms
  obtain ⟨s2, l2, f2, h2, hf2⟩ := hb (ms ++ l1.map attMsg)
  cases f1 with
  | panic => exact absurd rfl hf1
  | err => exact ⟨s1, l1, .err, by simp [BM.app, h1], by simp⟩
  | ok => exact ⟨s1 ++ s2, l1 ++ l2, f2, by simp [BM.app, h1, h2], hf2⟩

theorem goodB_push {mk : Res Empty Ws} {b : Bytes} (h : mk = .ok (attMsg b)) (plain : SVal → W) :
    GoodB (pushPlaceholder mk plain) := by
  intro ms
  refine ⟨_, [b], _, by simp [pushPlaceholder, h]; exact ⟨rfl, rfl⟩, ?_⟩
  split <;> simp

theorem goodB_packed {d : Bytes} (h : Framed d) (hd : d ≠ []) (plain : SVal → W) :
    GoodB (pushPlaceholder (packageBinary d) plain) := by
  rcases h with rfl | ⟨b, rfl⟩
  · exact absurd rfl hd
  · exact goodB_push (packageBinary_ok b) plain

theorem goodB_serKeySeqB : ∀ (vs : List SVal) (d : Bytes), Framed d → GoodB (serKeySeqB d vs)
  | [], d, h => by
    rw [serKeySeqB]
    split
    · exact GoodB.lift _
    · exact goodB_packed h (by assumption) _
  | v :: vs, d, h => by
    rw [serKeySeqB]
    split
    · exact goodB_serKeySeqB vs _ (framed_pushByte h _)
    · exact GoodB.lift _

theorem goodB_serKeyB : ∀ k : SVal, GoodB (serKeyB k)
  | .bytes b => goodB_push (encodeBinary_ok b) _
  | .seq vs => goodB_serKeySeqB vs [] (Or.inl rfl)
  | .newtype v => by simpa [serKeyB] using goodB_serKeyB v
  | .some v => by simpa [serKeyB] using goodB_serKeyB v
  | .bool _ | .u8 _ | .int _ | .float _ | .char _ | .str _ | .unitVariant _
  | .none | .unit | .newtypeVariant _ _ | .tuple _ | .tupleVariant _ _
  | .map _ | .struct _ | .structVariant _ _ | .fail => GoodB.lift _

mutual
theorem goodB_serB : ∀ v : SVal, GoodB (serB v)
  | .bytes b => goodB_push (encodeBinary_ok b) _
  | .seq vs => by rw [serB]; exact goodB_serSeqB vs [] (Or.inl rfl)
  | .some v => by simpa [serB] using goodB_serB v
  | .newtype v => by simpa [serB] using goodB_serB v
  | .newtypeVariant n v => by rw [serB]; exact (GoodB.lit _).app ((goodB_serB v).app (GoodB.lit _))
  | .tuple vs => by rw [serB]; exact (GoodB.lit _).app ((goodB_serElemsB vs true).app (GoodB.lit _))
  | .tupleVariant n vs => by rw [serB]; exact (GoodB.lit _).app ((goodB_serElemsB vs true).app (GoodB.lit _))
  | .map kvs => by rw [serB]; exact (GoodB.lit _).app ((goodB_serEntriesB kvs true).app (GoodB.lit _))
  | .struct fs => by rw [serB]; exact (GoodB.lit _).app ((goodB_serFieldsB fs true).app (GoodB.lit _))
  | .structVariant n fs => by rw [serB]; exact (GoodB.lit _).app ((goodB_serFieldsB fs true).app (GoodB.lit _))
  | .bool _ | .u8 _ | .int _ | .float _ | .char _ | .str _ | .none | .unit | .unitVariant _ | .fail => by
    rw [serB]; exact GoodB.lift _
theorem goodB_serSeqB : ∀ (vs : List SVal) (d : Bytes), Framed d → GoodB (serSeqB d vs)
  | [], d, h => by
    rw [serSeqB]
    unfold endBytes
    split
    · exact GoodB.lit _
    · exact goodB_packed h (by assumption) _
  | v :: vs, d, h => by
    rw [serSeqB]
    split
    · exact goodB_serSeqB vs _ (framed_pushByte h _)
    · exact (GoodB.lit _).app ((GoodB.lit _).app ((goodB_serB v).app ((goodB_serElemsB vs false).app (GoodB.lit _))))
theorem goodB_serElemsB : ∀ (vs : List SVal) (first : Bool), GoodB (serElemsB first vs)
  | [], _ => by rw [serElemsB]; exact GoodB.lit _
  | v :: vs, first => by
    rw [serElemsB]
    exact (GoodB.lit _).app ((goodB_serB v).app (goodB_serElemsB vs false))
theorem goodB_serEntriesB : ∀ (kvs : List (SVal × SVal)) (first : Bool), GoodB (serEntriesB first kvs)
  | [], _ => by rw [serEntriesB]; exact GoodB.lit _
  | (k, v) :: kvs, first => by
    rw [serEntriesB]
    exact (GoodB.lit _).app ((goodB_serKeyB k).app ((GoodB.lit _).app
      ((goodB_serB v).app (goodB_serEntriesB kvs false))))
theorem goodB_serFieldsB : ∀ (kvs : List (Str × SVal)) (first : Bool), GoodB (serFieldsB first kvs)
  | [], _ => by rw [serFieldsB]; exact GoodB.lit _
  | (k, v) :: kvs, first => by
    rw [serFieldsB]
    exact (GoodB.lit _).app ((GoodB.lit _).app ((goodB_serB v).app (goodB_serFieldsB kvs false)))
end

/-! ### Which values can be serialized does not depend on the mode -/

mutual
theorem docWith_isSome : ∀ (v : SVal) (l l' : Bool), (docWith l v).isSome = (docWith l' v).isSome
  | .bool _, _, _ | .u8 _, _, _ | .int _, _, _ | .float none, _, _ | .float (some _), _, _ | .char _, _, _
  | .str _, _, _ | .bytes _, _, _ | .none, _, _ | .unit, _, _ | .unitVariant _, _, _ | .fail, _, _ => by
    simp [docWith]
  | .some v, l, l' => by simpa [docWith] using docWith_isSome v l l'
  | .newtype v, l, l' => by simpa [docWith] using docWith_isSome v l l'
  | .newtypeVariant n v, l, l' => by simpa [docWith] using docWith_isSome v l l'
  | .seq [], _, _ => by simp [docWith]
  | .seq (v :: vs), l, l' => by
    have := docsWith_isSome (v :: vs) l l'
    rw [docWith, docWith]
    split
    · rfl
    · split <;> split <;> simpa using this
  | .tuple vs, l, l' => by simpa [docWith] using docsWith_isSome vs l l'
  | .tupleVariant n vs, l, l' => by simpa [docWith] using docsWith_isSome vs l l'
  | .map kvs, l, l' => by simpa [docWith] using entriesWith_isSome kvs l l'
  | .struct kvs, l, l' => by simpa [docWith] using fieldsWith_isSome kvs l l'
  | .structVariant n kvs, l, l' => by simpa [docWith] using fieldsWith_isSome kvs l l'
theorem docsWith_isSome : ∀ (vs : List SVal) (l l' : Bool), (docsWith l vs).isSome = (docsWith l' vs).isSome
  | [], _, _ => by simp [docsWith]
  | v :: vs, l, l' => by
    have h1 := docWith_isSome v l l'
    have h2 := docsWith_isSome vs l l'
    simp only [docsWith]
    cases ha : docWith l v <;> cases hb : docWith l' v <;> simp [ha, hb] at h1 <;>
    cases hc : docsWith l vs <;> cases hd : docsWith l' vs <;> simp [hc, hd] at h2 <;> simp
theorem entriesWith_isSome : ∀ (kvs : List (SVal × SVal)) (l l' : Bool),
    (entriesWith l kvs).isSome = (entriesWith l' kvs).isSome
  | [], _, _ => by simp [entriesWith]
  | (k, v) :: vs, l, l' => by
    have h1 := docWith_isSome v l l'
    have h2 := entriesWith_isSome vs l l'
    simp only [entriesWith]
    cases keyOf k <;>
    cases ha : docWith l v <;> cases hb : docWith l' v <;> simp [ha, hb] at h1 <;>
    cases hc : entriesWith l vs <;> cases hd : entriesWith l' vs <;> simp [hc, hd] at h2 <;> simp
theorem fieldsWith_isSome : ∀ (kvs : List (Str × SVal)) (l l' : Bool),
    (fieldsWith l kvs).isSome = (fieldsWith l' kvs).isSome
  | [], _, _ => by simp [fieldsWith]
  | (k, v) :: vs, l, l' => by
    have h1 := docWith_isSome v l l'
    have h2 := fieldsWith_isSome vs l l'
    simp only [fieldsWith]
    cases ha : docWith l v <;> cases hb : docWith l' v <;> simp [ha, hb] at h1 <;>
    cases hc : fieldsWith l vs <;> cases hd : fieldsWith l' vs <;> simp [hc, hd] at h2 <;> simp
end

theorem allU8_none {vs : List SVal} (h : allU8 vs = none) : ∃ v ∈ vs, ∀ n, v ≠ .u8 n := by
  induction vs with
  | nil => simp [allU8] at h
  | cons v vs ih =>
    unfold allU8 at h
    cases hv : asByte v with
    | none => exact ⟨v, by simp, fun n he => by simp [he, asByte] at hv⟩
    | some b =>
      cases hs : allU8 vs with
      | none =>
        obtain ⟨w, hw, hn⟩ := ih hs
        exact ⟨w, by simp [hw], hn⟩
      | some bs => simp [hv, hs] at h

theorem allU8_some_iff {vs : List SVal} {b : Bytes} : allU8 vs = some b ↔ vs = b.map SVal.u8 := by
  induction vs generalizing b with
  | nil => cases b <;> simp [allU8]
  | cons v vs ih =>
    constructor
    · intro h
      unfold allU8 at h
      split at h
      · rename_i x bs hx hbs
        simp at h
        subst h
        rw [asByte_some hx, ih.1 hbs]
        rfl
      · simp at h
    · intro h
      cases b with
      | nil => simp at h
      | cons x b =>
        simp at h
        obtain ⟨rfl, h⟩ := h
        simp [allU8, asByte, ih.2 h]

mutual
/-- Without mixed sequences nothing leaks. -/
theorem docWith_noMixed : ∀ v : SVal, v.NoMixed → docWith true v = docWith false v
  | .bool _, _ | .u8 _, _ | .int _, _ | .float none, _ | .float (some _), _ | .char _, _
  | .str _, _ | .bytes _, _ | .none, _ | .unit, _ | .unitVariant _, _ | .fail, _ => by
    simp [docWith]
  | .some v, h => by simpa [docWith] using docWith_noMixed v (by simpa [SVal.NoMixed] using h)
  | .newtype v, h => by simpa [docWith] using docWith_noMixed v (by simpa [SVal.NoMixed] using h)
  | .newtypeVariant n v, h => by simp [docWith, docWith_noMixed v (by simpa [SVal.NoMixed] using h)]
  | .seq [], _ => by simp [docWith]
  | .seq (v :: vs), h => by
    obtain ⟨h1, h2⟩ : ¬ Mixed (v :: vs) ∧ NoMixedL (v :: vs) := by simpa [SVal.NoMixed] using h
    have := docsWith_noMixed (v :: vs) h2
    rw [docWith, docWith]
    split
    · rfl
    · rename_i hn
      split
      · rename_i hl
        exfalso
        apply h1
        refine ⟨?_, allU8_none hn⟩
        cases hv : asByte v with
        | none => simp [hv] at hl
        | some b => exact ⟨b, vs, by rw [asByte_some hv]⟩
      · rw [if_neg (by simp), this]
  | .tuple vs, h => by simp [docWith, docsWith_noMixed vs (by simpa [SVal.NoMixed] using h)]
  | .tupleVariant n vs, h => by simp [docWith, docsWith_noMixed vs (by simpa [SVal.NoMixed] using h)]
  | .map kvs, h => by simp [docWith, entriesWith_noMixed kvs (by simpa [SVal.NoMixed] using h)]
  | .struct kvs, h => by simp [docWith, fieldsWith_noMixed kvs (by simpa [SVal.NoMixed] using h)]
  | .structVariant n kvs, h => by simp [docWith, fieldsWith_noMixed kvs (by simpa [SVal.NoMixed] using h)]
theorem docsWith_noMixed : ∀ vs : List SVal, NoMixedL vs → docsWith true vs = docsWith false vs
  | [], _ => by simp [docsWith]
  | v :: vs, h => by
    obtain ⟨h1, h2⟩ : v.NoMixed ∧ NoMixedL vs := by simpa [NoMixedL] using h
    simp only [docsWith, docWith_noMixed v h1, docsWith_noMixed vs h2]
theorem entriesWith_noMixed : ∀ kvs : List (SVal × SVal), NoMixedM kvs → entriesWith true kvs = entriesWith false kvs
  | [], _ => by simp [entriesWith]
  | (k, v) :: vs, h => by
    obtain ⟨h1, h2⟩ : v.NoMixed ∧ NoMixedM vs := by simpa [NoMixedM] using h
    simp only [entriesWith, docWith_noMixed v h1, entriesWith_noMixed vs h2]
theorem fieldsWith_noMixed : ∀ kvs : List (Str × SVal), NoMixedF kvs → fieldsWith true kvs = fieldsWith false kvs
  | [], _ => by simp [fieldsWith]
  | (k, v) :: vs, h => by
    obtain ⟨h1, h2⟩ : v.NoMixed ∧ NoMixedF vs := by simpa [NoMixedF] using h
    simp only [fieldsWith, docWith_noMixed v h1, fieldsWith_noMixed vs h2]
end

end SIO
