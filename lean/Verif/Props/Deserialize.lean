import Verif.Lemmas.Deserialize
/-
C23, C24: reading arguments into typed targets.
-/
namespace SIO
open Spec

mutual
theorem filledTree_nil : ∀ t t' : JTree, FilledTree [] t t' → t' = t
  | .null, _, h => by simpa [FilledTree] using h
  | .bool _, _, h => by simpa [FilledTree] using h
  | .num _, _, h => by simpa [FilledTree] using h
  | .str _, _, h => by simpa [FilledTree] using h
  | .arr ts, _, h => by
    simp only [FilledTree] at h
    obtain ⟨ts', rfl, h⟩ := h
    rw [filledTrees_nil ts ts' h]
  | .obj kts, _, h => by
    simp only [FilledTree] at h
    rcases h with ⟨_, i, b, _, h, _⟩ | ⟨_, kts', rfl, h⟩
    · simp at h
    · rw [filledMembers_nil kts kts' h]
theorem filledTrees_nil : ∀ t t' : List JTree, FilledTrees [] t t' → t' = t
  | [], _, h => by simpa [FilledTrees] using h
  | t :: ts, _, h => by
    simp only [FilledTrees] at h
    obtain ⟨u, us, rfl, h1, h2⟩ := h
    rw [filledTree_nil t u h1, filledTrees_nil ts us h2]
theorem filledMembers_nil : ∀ t t' : List (Str × JTree), FilledMembers [] t t' → t' = t
  | [], _, h => by simpa [FilledMembers] using h
  | (k, t) :: ts, _, h => by
    simp only [FilledMembers] at h
    obtain ⟨u, us, rfl, h1, h2⟩ := h
    rw [filledTree_nil t u h1, filledMembers_nil ts us h2]
end

mutual
/-- A tree without placeholders is its own filled tree. -/
theorem filledTree_phFree (bs : List Bytes) : ∀ t : JTree, PhFree t → FilledTree bs t t
  | .null, _ => by simp [FilledTree]
  | .bool _, _ => by simp [FilledTree]
  | .num _, _ => by simp [FilledTree]
  | .str _, _ => by simp [FilledTree]
  | .arr ts, h => by
    simp only [PhFree] at h
    simp only [FilledTree]
    exact ⟨ts, rfl, filledTrees_phFree bs ts h⟩
  | .obj kts, h => by
    simp only [PhFree] at h
    simp only [FilledTree]
    exact Or.inr ⟨h.1, kts, rfl, filledMembers_phFree bs kts h.2⟩
theorem filledTrees_phFree (bs : List Bytes) : ∀ t : List JTree, PhFreeL t → FilledTrees bs t t
  | [], _ => by simp [FilledTrees]
  | t :: ts, h => by
    simp only [PhFreeL] at h
    simp only [FilledTrees]
    exact ⟨t, ts, rfl, filledTree_phFree bs t h.1, filledTrees_phFree bs ts h.2⟩
theorem filledMembers_phFree (bs : List Bytes) : ∀ t : List (Str × JTree), PhFreeM t → FilledMembers bs t t
  | [], _ => by simp [FilledMembers]
  | (k, t) :: ts, h => by
    simp only [PhFreeM] at h
    simp only [FilledMembers]
    exact ⟨t, ts, rfl, filledTree_phFree bs t h.1, filledMembers_phFree bs ts h.2⟩
end

theorem fromStr_text {x : Ext} {ty : Ty} {t : JTree} {s : Str} (h : IsText t s) : fromStr x ty s = de x 128 ty t := by
  simp [fromStr, (parseTree_iff s t).2 h]

theorem fromStrA_text {x : Ext} {bs : List Bytes} {ty : Ty} {t : JTree} {s : Str} (h : IsText t s) :
    fromStrA x bs ty s = deA x bs 128 ty (readPart ty t) := by
  simp [fromStrA, (parseTree_iff s t).2 h]

theorem fromStrA_whole {x : Ext} {bs : List Bytes} {ty : Ty} {t : JTree} {s : Str} (h : IsText t s) (hw : WholeInt ty t) :
    fromStrA x bs ty s = deA x bs 128 ty t := by
  obtain ⟨_, _, _, _, _, _, hv⟩ := id h
  rw [fromStrA_text h, readPart_whole hv hw]

/-- C23, for the targets and argument trees of the class `Alike`: reading an argument of a
decoded packet into a type is reading, into that type, any JSON text of the tree in which the
placeholders are replaced by the bytes they designate.  It is not claimed for the others, see
the counterexamples below. -/
theorem C23_partial (x : Ext) (s : Str) (ms : List EMsg) (a : Arg) (h : ArgOf s ms a) :
    ∃ (t : JTree) (bs : List Bytes), IsVal t a.arg ∧ Payloads ms (bs.map Payload.binary) ∧
      ∀ (ty : Ty) (t' : JTree) (s' : Str), Alike bs ty t → WholeInt ty t → FilledTree bs t t' → IsText t' s' →
        a.deserialize x ty = Res.ofOption (.jsonDeError a.arg) (fromStr x ty s') := by
  obtain ⟨t, bs, ht, hb, hp⟩ := argOf_spec h
  refine ⟨t, bs, ht, hp, fun ty t' s' ha hw hf hs => ?_⟩
  unfold Arg.deserialize
  rw [allSome_deref hb]
  simp only [fromStr_text hs, fromStr_text (isVal_text ht), fromStrA_whole (isVal_text ht) hw]
  split
  · rw [deA_filled x bs ty 128 t t' ha hf]
  · rename_i hn
    have hn : a.attachments = [] := Classical.byContradiction hn
    have : bs = [] := by
      rw [hn] at hb
      cases bs with
      | nil => rfl
      | cons b bs => simp at hb
    subst this
    rw [filledTree_nil t t' hf]

/-- C24, first half: reading an argument of a packet without attachments is plain JSON
deserialization. -/
theorem C24_plain (x : Ext) (s : Str) (a : Arg) (h : ArgOf s [] a) (ty : Ty) :
    a.deserialize x ty = Res.ofOption (.jsonDeError a.arg) (fromStr x ty a.arg) := by
  obtain ⟨t, bs, ht, hb, hp⟩ := argOf_spec h
  have : bs = [] := by
    have := payloads_length hp
    simpa using this.symm
  subst this
  have : a.attachments = [] := by simpa using hb
  simp [Arg.deserialize, this, allSome]

/-- C24, second half, for the targets and trees of the class `Alike`: the attachment-aware
deserializer reads a text without placeholders like a plain JSON deserializer, whatever
attachments there are (none in particular). -/
theorem C24_aware_partial (x : Ext) (bs : List Bytes) (ty : Ty) (t : JTree) (s : Str) (ht : IsText t s) (hp : PhFree t)
    (ha : Alike bs ty t) (hw : WholeInt ty t) : fromStrA x bs ty s = fromStr x ty s := by
  rw [fromStr_text ht, fromStrA_whole ht hw, deA_filled x bs ty 128 t t ha (filledTree_phFree bs t hp)]

/-! ### A simpler sufficient condition for the second half of C24 -/

mutual
/-- No map with integer keys occurs in the type. -/
def NoIntKeys : Ty → Prop
  | .imap _ => False
  | .option ty => NoIntKeys ty
  | .newtype ty => NoIntKeys ty
  | .seq ty => NoIntKeys ty
  | .map ty => NoIntKeys ty
  | .tuple tys => NoIntKeysL tys
  | .struct fs => NoIntKeysM fs
  | .enum vs => NoIntKeysM vs
  | _ => True
def NoIntKeysL : List Ty → Prop
  | [] => True
  | ty :: tys => NoIntKeys ty ∧ NoIntKeysL tys
def NoIntKeysM : List (Str × Ty) → Prop
  | [] => True
  | (_, ty) :: tys => NoIntKeys ty ∧ NoIntKeysM tys
end

/-- What the simpler condition asks of a tree: no placeholders, no escapes in first keys, no
lone surrogates. -/
def PlainTree (t : JTree) : Prop := PhFree t ∧ UsualTree t ∧ ∃ d, Denotes t d

/-- The same for the parts of an array and of an object. -/
theorem plainTree_arr {ts : List JTree} (h : PlainTree (.arr ts)) : ∀ t ∈ ts, PlainTree t := by
  obtain ⟨h1, h2, d, h3⟩ := h
  simp only [PhFree, UsualTree, Denotes] at h1 h2 h3
  obtain ⟨ds, rfl, h3⟩ := h3
  induction ts generalizing ds with
  | nil => simp
  | cons t ts ih =>
    simp only [PhFreeL, UsualTrees, DenotesL] at h1 h2 h3
    obtain ⟨d, ds', rfl, h4, h5⟩ := h3
    intro u hu
    rcases List.mem_cons.1 hu with rfl | hu
    · exact ⟨h1.1, h2.1, d, h4⟩
    · exact ih h1.2 h2.2 ds' h5 u hu

theorem plainTree_obj {kts : List (Str × JTree)} (h : PlainTree (.obj kts)) :
    ¬ PhTree kts ∧ FirstKeyPlain kts ∧ ∀ kt ∈ kts, PlainTree kt.2 := by
  obtain ⟨h1, h2, d, h3⟩ := h
  simp only [PhFree, UsualTree, Denotes] at h1 h2 h3
  refine ⟨h1.1, h2.1.2 h1.1, ?_⟩
  replace h2 := h2.2 h1.1
  replace h1 := h1.2
  obtain ⟨ds, rfl, h3⟩ := h3
  induction kts generalizing ds with
  | nil => simp
  | cons t ts ih =>
    obtain ⟨k, t⟩ := t
    simp only [PhFreeM, UsualMembers, DenotesM] at h1 h2 h3
    obtain ⟨k', d, ds', rfl, _, h4, h5⟩ := h3
    intro u hu
    rcases List.mem_cons.1 hu with rfl | hu
    · exact ⟨h1.1, h2.1, d, h4⟩
    · exact ih h2.2 h1.2 ds' h5 u hu

mutual
theorem alike_plain (bs : List Bytes) : ∀ (ty : Ty) (t : JTree), NoIntKeys ty → PlainTree t → Alike bs ty t
  | .bool, _, _, _ => by simp [Alike]
  | .uint _, _, _, _ => by simp [Alike]
  | .int _, _, _, _ => by simp [Alike]
  | .float, _, _, _ => by simp [Alike]
  | .unit, _, _, _ => by simp [Alike]
  | .ignored, _, _, _ => by simp [Alike]
  | .char, _, _, _ => by simp [Alike]
  | .wide _, _, _, _ => by simp [Alike]
  | .bstr, t, _, h => by
    simp only [Alike]
    rintro ⟨kts, rfl, hp⟩
    exact (plainTree_obj h).1 hp
  | .bbytes, t, _, h => by
    simp only [Alike]
    rintro ⟨kts, rfl, hp⟩
    exact (plainTree_obj h).1 hp
  | .str, t, _, h => by
    simp only [Alike]
    rintro ⟨kts, rfl, hp⟩
    exact (plainTree_obj h).1 hp
  | .bytes, t, _, h => by
    simp only [Alike]
    cases t with
    | str raw =>
      obtain ⟨_, _, d, h⟩ := h
      simp only [Denotes] at h
      obtain ⟨s, _, h⟩ := h
      exact ⟨s, h⟩
    | obj kts => exact fun hp => absurd hp (plainTree_obj h).1
    | _ => trivial
  | .value, t, _, h => by simp only [Alike]; exact h.2.1
  | .option ty, t, hn, h => by
    simp only [NoIntKeys] at hn
    simp only [Alike]
    exact alike_plain bs ty t hn h
  | .newtype ty, t, hn, h => by
    simp only [NoIntKeys] at hn
    simp only [Alike]
    exact alike_plain bs ty t hn h
  | .seq ty, t, hn, h => by
    simp only [NoIntKeys] at hn
    simp only [Alike]
    cases t with
    | arr ts => exact fun u hu => alike_plain bs ty u hn (plainTree_arr h u hu)
    | obj kts => exact fun hp => absurd hp (plainTree_obj h).1
    | _ => trivial
  | .map ty, t, hn, h => by
    simp only [NoIntKeys] at hn
    simp only [Alike]
    cases t with
    | obj kts =>
      obtain ⟨h1, h2, h3⟩ := plainTree_obj h
      exact ⟨⟨fun hp => absurd hp h1, fun _ => h2⟩, fun _ kt hk => alike_plain bs ty kt.2 hn (h3 kt hk)⟩
    | _ => trivial
  | .imap _, _, hn, _ => by simp [NoIntKeys] at hn
  | .tuple tys, t, hn, h => by
    simp only [NoIntKeys] at hn
    simp only [Alike]
    cases t with
    | arr ts => exact alikeL_plain bs tys ts hn (plainTree_arr h)
    | obj kts => exact fun hp => absurd hp (plainTree_obj h).1
    | _ => trivial
  | .struct fs, t, hn, h => by
    simp only [NoIntKeys] at hn
    simp only [Alike]
    cases t with
    | arr ts => exact alikeF_plain bs fs ts hn (plainTree_arr h)
    | obj kts =>
      obtain ⟨h1, h2, h3⟩ := plainTree_obj h
      exact ⟨fun hp => absurd hp h1, fun _ => ⟨h2, alikeM_plain bs fs kts hn h3⟩⟩
    | _ => trivial
  | .enum vs, t, hn, h => by
    simp only [NoIntKeys] at hn
    simp only [Alike]
    split
    · rename_i k t
      exact alikeV_plain bs vs k t hn ((plainTree_obj h).2.2 (k, t) List.mem_cons_self)
    · trivial
theorem alikeL_plain (bs : List Bytes) : ∀ (tys : List Ty) (ts : List JTree), NoIntKeysL tys → (∀ t ∈ ts, PlainTree t) →
    AlikeL bs tys ts
  | [], _, _, _ => by simp [AlikeL]
  | ty :: tys, [], _, _ => by simp [AlikeL]
  | ty :: tys, t :: ts, hn, h => by
    simp only [NoIntKeysL] at hn
    simp only [AlikeL]
    exact ⟨alike_plain bs ty t hn.1 (h t List.mem_cons_self),
      alikeL_plain bs tys ts hn.2 fun u hu => h u (List.mem_cons_of_mem _ hu)⟩
theorem alikeF_plain (bs : List Bytes) : ∀ (fs : List (Str × Ty)) (ts : List JTree), NoIntKeysM fs →
    (∀ t ∈ ts, PlainTree t) → AlikeF bs fs ts
  | [], _, _, _ => by simp [AlikeF]
  | (_, ty) :: tys, [], _, _ => by simp [AlikeF]
  | (_, ty) :: tys, t :: ts, hn, h => by
    simp only [NoIntKeysM] at hn
    simp only [AlikeF]
    exact ⟨alike_plain bs ty t hn.1 (h t List.mem_cons_self),
      alikeF_plain bs tys ts hn.2 fun u hu => h u (List.mem_cons_of_mem _ hu)⟩
theorem alikeM_plain (bs : List Bytes) : ∀ (fs : List (Str × Ty)) (kts : List (Str × JTree)), NoIntKeysM fs →
    (∀ kt ∈ kts, PlainTree kt.2) → AlikeM bs fs kts
  | [], _, _, _ => by simp [AlikeM]
  | (_, ty) :: tys, kts, hn, h => by
    simp only [NoIntKeysM] at hn
    simp only [AlikeM]
    exact ⟨fun kt hk _ => alike_plain bs ty kt.2 hn.1 (h kt hk), alikeM_plain bs tys kts hn.2 h⟩
theorem alikeV_plain (bs : List Bytes) : ∀ (vs : List (Str × Ty)) (k : Str) (t : JTree), NoIntKeysM vs →
    PlainTree t → AlikeV bs vs k t
  | [], _, _, _, _ => by simp [AlikeV]
  | (_, ty) :: tys, k, t, hn, h => by
    simp only [NoIntKeysM] at hn
    simp only [AlikeV]
    refine ⟨fun _ => ⟨alike_plain bs ty t hn.1 h, fun _ => ?_⟩, alikeV_plain bs tys k t hn.2 h⟩
    rintro ⟨kts, rfl, hp⟩
    exact (plainTree_obj h).1 hp
end

/-- C24, second half: every type without integer-keyed maps, every text without placeholders,
without lone surrogates and without escapes in the first key of an object, and that is not a number
with fraction or exponent if all of it is to be a 128-bit integer. -/
theorem C24_types_partial (x : Ext) (bs : List Bytes) (ty : Ty) (t : JTree) (s : Str) (ht : IsText t s)
    (hn : NoIntKeys ty) (hp : PlainTree t) (hw : WholeInt ty t) : fromStrA x bs ty s = fromStr x ty s :=
  C24_aware_partial x bs ty t s ht hp.1 (alike_plain bs ty t hn hp) hw

/-! ### Where the two disagree -/

/-- A concrete reading of floats and lone surrogates. -/
def exExt : Ext := ⟨fun _ => true, fun _ => []⟩

mutual
/-- Equality of trees. -/
def jeq : JTree → JTree → Bool
  | .null, .null => true
  | .bool a, .bool b => a == b
  | .num a, .num b => decide (a = b)
  | .str a, .str b => decide (a = b)
  | .arr a, .arr b => jeqL a b
  | .obj a, .obj b => jeqM a b
  | _, _ => false
def jeqL : List JTree → List JTree → Bool
  | [], [] => true
  | a :: as, b :: bs => jeq a b && jeqL as bs
  | _, _ => false
def jeqM : List (Str × JTree) → List (Str × JTree) → Bool
  | [], [] => true
  | (k, a) :: as, (k', b) :: bs => decide (k = k') && (jeq a b && jeqM as bs)
  | _, _ => false
end

mutual
theorem jeq_eq : ∀ a b : JTree, jeq a b = true → a = b
  | .null, b, h => by cases b <;> simp_all [jeq]
  | .bool _, b, h => by cases b <;> simp_all [jeq]
  | .num _, b, h => by cases b <;> simp_all [jeq]
  | .str _, b, h => by cases b <;> simp_all [jeq]
  | .arr a, b, h => by
    cases b <;> simp only [jeq, Bool.false_eq_true] at h
    rw [jeqL_eq a _ h]
  | .obj a, b, h => by
    cases b <;> simp only [jeq, Bool.false_eq_true] at h
    rw [jeqM_eq a _ h]
theorem jeqL_eq : ∀ a b : List JTree, jeqL a b = true → a = b
  | [], b, h => by cases b <;> simp_all [jeqL]
  | a :: as, b, h => by
    cases b with
    | nil => simp [jeqL] at h
    | cons b bs =>
      simp only [jeqL, Bool.and_eq_true] at h
      rw [jeq_eq a b h.1, jeqL_eq as bs h.2]
theorem jeqM_eq : ∀ a b : List (Str × JTree), jeqM a b = true → a = b
  | [], b, h => by cases b <;> simp_all [jeqM]
  | (k, a) :: as, b, h => by
    cases b with
    | nil => simp [jeqM] at h
    | cons b bs =>
      obtain ⟨k', b⟩ := b
      simp only [jeqM, Bool.and_eq_true, decide_eq_true_eq] at h
      rw [h.1, jeq_eq a b h.2.1, jeqM_eq as bs h.2.2]
end

/-- The text parses to the tree. -/
def parsesTo (s : Str) (t : JTree) : Bool :=
  match parseTree s with
  | some u => jeq u t
  | none => false

theorem parsesTo_spec {s : Str} {t : JTree} (h : parsesTo s t = true) : IsText t s := by
  unfold parsesTo at h
  split at h
  · rename_i u hu
    rw [← jeq_eq u t h]
    exact (parseTree_iff s u).1 hu
  · simp at h

/-- An argument of a decodable packet and the text of its filled tree are read differently
into the type: exactly one of them can be read. -/
def Disagrees (x : Ext) (ty : Ty) (aware : Bool) : Prop :=
  ∃ s ms a t bs t' s', ArgOf s ms a ∧ IsText t a.arg ∧ Payloads ms (bs.map Payload.binary) ∧ FilledTree bs t t' ∧
    IsText t' s' ∧
    if aware then (∃ v, a.deserialize x ty = .ok v) ∧ fromStr x ty s' = none
    else (∃ e, a.deserialize x ty = .err e) ∧ ∃ v, fromStr x ty s' = some v

/-- What is checked by evaluation. -/
def differs (x : Ext) (ty : Ty) (aware : Bool) (t : JTree) (s' : Str) (a : Arg) : Bool :=
  parsesTo a.arg t &&
    if aware then (a.deserialize x ty).okWith (fun _ => true) && (fromStr x ty s').isNone
    else (match a.deserialize x ty with
      | .err _ => true
      | _ => false) && (fromStr x ty s').isSome

theorem binary_payloads (bs : List Bytes) :
    Payloads (bs.map fun b => .binary (OwnedSubslice.new (4 :: b) 1 (4 :: b).length)) (bs.map Payload.binary) := by
  induction bs with
  | nil => exact .nil
  | cons b bs ih => exact .cons (deref_binary b) ih

theorem disagrees_of (x : Ext) (ty : Ty) (aware : Bool) (s : Str) (bs : List Bytes) (t t' : JTree) (s' : Str)
    (h : (decodeAll s bs).okWith (firstArg (differs x ty aware t s')) = true) (hf : FilledTree bs t t')
    (ht' : parsesTo s' t' = true) : Disagrees x ty aware := by
  obtain ⟨pk, hd, hf'⟩ := Res.okWith_spec h
  obtain ⟨id, A, a, h1, h2, h3⟩ := firstArg_spec hf'
  simp only [differs, Bool.and_eq_true] at h3
  refine ⟨s, _, a, t, bs, t', s', ⟨pk, A, 0, decodeAll_decoded hd, Or.inl ⟨id, h1⟩, h2⟩, parsesTo_spec h3.1,
    binary_payloads bs, hf, parsesTo_spec ht', ?_⟩
  cases aware with
  | true =>
    simp only [if_true, Bool.and_eq_true] at h3 ⊢
    obtain ⟨v, hv, _⟩ := Res.okWith_spec h3.2.1
    exact ⟨⟨v, hv⟩, by simpa using h3.2.2⟩
  | false =>
    simp only [Bool.false_eq_true, if_false, Bool.and_eq_true] at h3 ⊢
    refine ⟨?_, Option.isSome_iff_exists.1 h3.2.2⟩
    have := h3.2.1
    split at this
    · rename_i e he
      exact ⟨e, he⟩
    · simp at this

/-- A usual placeholder. -/
def exPh (i : Nat) : JTree := .obj [(phKey, .bool true), (numKey, .num (decimal i))]

theorem exPh_filled {bs : List Bytes} {i : Nat} {b : Bytes} (hi : i < 2 ^ 64) (hb : bs[i]? = some b) :
    FilledTree bs (exPh i) (bytesTree b) := by
  simp only [exPh, FilledTree]
  exact Or.inl ⟨⟨_, List.mem_cons_self, phKey_denotes⟩, i, b,
    ⟨[(phKey, .bool true)], numKey, [], rfl, numKey_denotes, hi, by simp [HasKey]⟩, hb, rfl⟩

/-- C23 is false: a string target takes the UTF-8 text of an attachment, but not an array of
numbers. -/
theorem C23_counterexample : Disagrees exExt .str true :=
  disagrees_of _ _ _ "51-[{\"_placeholder\":true,\"num\":0}]".toList [[104, 105]] (exPh 0) (bytesTree [104, 105])
    "[104,105]".toList (by decide +kernel) (exPh_filled (by decide) rfl) (by decide +kernel)

/-- C23 is false: optional elements are not read out of an attachment. -/
theorem C23_counterexample_option : Disagrees exExt (.seq (.option (.uint 8))) false :=
  disagrees_of _ _ _ "51-[{\"_placeholder\":true,\"num\":0}]".toList [[104, 105]] (exPh 0) (bytesTree [104, 105])
    "[104,105]".toList (by decide +kernel) (exPh_filled (by decide) rfl) (by decide +kernel)

/-- C23 is false: a tuple that is shorter than the attachment ignores the other bytes. -/
theorem C23_counterexample_tuple : Disagrees exExt (.tuple [.uint 8]) true :=
  disagrees_of _ _ _ "51-[{\"_placeholder\":true,\"num\":0}]".toList [[104, 105]] (exPh 0) (bytesTree [104, 105])
    "[104,105]".toList (by decide +kernel) (exPh_filled (by decide) rfl) (by decide +kernel)

theorem pair_filled {bs : List Bytes} {kts : List (Str × JTree)} {b : Bytes} (hk : PhFree (.obj kts))
    (hb : bs[0]? = some b) : FilledTree bs (.arr [.obj kts, exPh 0]) (.arr [.obj kts, bytesTree b]) := by
  simp only [FilledTree]
  refine ⟨_, rfl, ?_⟩
  simp only [FilledTrees]
  exact ⟨_, _, rfl, filledTree_phFree bs _ hk, _, _, rfl, exPh_filled (by decide) hb, rfl⟩

theorem phTree_one {k : Str} {t : JTree} (h : unescape k ≠ some phKey) : ¬ PhTree [(k, t)] := by
  rintro ⟨kt, hm, hd⟩
  simp only [List.mem_singleton] at hm
  subst hm
  exact h (unescape_complete hd)

theorem exKey_free (k : Str) (h : unescape k ≠ some phKey) : PhFree (.obj [(k, .bool true)]) := by
  simp only [PhFree, PhFreeM, and_self, and_true]
  exact phTree_one h

/-- C23 is false: a map with integer keys is not read next to an attachment. -/
theorem C23_counterexample_key : Disagrees exExt (.tuple [.imap .bool, .bytes]) false :=
  disagrees_of _ _ _ "51-[[{\"1\":true},{\"_placeholder\":true,\"num\":0}]]".toList [[104, 105]]
    (.arr [.obj [(['1'], .bool true)], exPh 0]) (.arr [.obj [(['1'], .bool true)], bytesTree [104, 105]])
    "[{\"1\":true},[104,105]]".toList (by decide +kernel) (pair_filled (exKey_free _ (by decide +kernel)) rfl) (by decide +kernel)

/-- C23 is false: an object whose first key has an escape is not read next to an attachment. -/
theorem C23_counterexample_escape : Disagrees exExt (.tuple [.map .bool, .bytes]) false :=
  disagrees_of _ _ _ "51-[[{\"\\n\":true},{\"_placeholder\":true,\"num\":0}]]".toList [[104, 105]]
    (.arr [.obj [(['\\', 'n'], .bool true)], exPh 0]) (.arr [.obj [(['\\', 'n'], .bool true)], bytesTree [104, 105]])
    "[{\"\\n\":true},[104,105]]".toList (by decide +kernel) (pair_filled (exKey_free _ (by decide +kernel)) rfl) (by decide +kernel)

/-- C23 is false: a placeholder is only recognised with its members in the usual order. -/
theorem C23_counterexample_order : Disagrees exExt .bytes false :=
  disagrees_of _ _ _ "51-[{\"num\":0,\"_placeholder\":true}]".toList [[104, 105]]
    (.obj [(numKey, .num (decimal 0)), (phKey, .bool true)]) (bytesTree [104, 105])
    "[104,105]".toList (by decide +kernel)
    (by
      simp only [FilledTree]
      refine Or.inl ⟨⟨(phKey, .bool true), by simp, phKey_denotes⟩, 0, [104, 105],
        ⟨[], numKey, [(phKey, .bool true)], rfl, numKey_denotes, by decide, ?_⟩, rfl, rfl⟩
      rintro ⟨kt, hm, hd⟩
      simp only [List.mem_singleton] at hm
      subst hm
      exact phKey_ne_numKey (SIO.StrDenotes.unique phKey_denotes hd))
    (by decide +kernel)

/-- C23 is false: next to an attachment a fraction is read as 128-bit integer. -/
theorem C23_counterexample_fraction : Disagrees exExt (.wide true) true :=
  disagrees_of _ _ _ "51-[1.5,{\"_placeholder\":true,\"num\":0}]".toList [[104, 105]] (.num "1.5".toList) (.num "1.5".toList)
    "1.5".toList (by decide +kernel) (by simp [FilledTree]) (by decide +kernel)

/-- C23 is false: an attachment can be borrowed, an array of numbers cannot. -/
theorem C23_counterexample_borrowed : Disagrees exExt .bbytes true :=
  disagrees_of _ _ _ "51-[{\"_placeholder\":true,\"num\":0}]".toList [[104, 105]] (exPh 0) (bytesTree [104, 105])
    "[104,105]".toList (by decide +kernel) (exPh_filled (by decide) rfl) (by decide +kernel)

/-- C23 is false: a tuple variant does not take an attachment. -/
theorem C23_counterexample_variant : Disagrees exExt (.enum [(['V'], .tuple [.uint 8, .uint 8])]) false :=
  disagrees_of _ _ _ "51-[{\"V\":{\"_placeholder\":true,\"num\":0}}]".toList [[104, 105]]
    (.obj [(['V'], exPh 0)]) (.obj [(['V'], bytesTree [104, 105])])
    "{\"V\":[104,105]}".toList (by decide +kernel)
    (by
      rw [FilledTree]
      refine Or.inr ⟨phTree_one (by decide +kernel), _, rfl, ?_⟩
      simp only [FilledMembers]
      exact ⟨_, _, rfl, exPh_filled (by decide) rfl, rfl⟩)
    (by decide +kernel)

-- non-vacuity of `C23_partial`: a struct with a byte string, a sequence and a dynamic value out of
-- attachments is in the class, and is read
example : ∃ t' : JTree, FilledTree [[104, 105]] (.obj [(['a'], exPh 0), (['b'], exPh 0), (['c'], exPh 0)]) t' ∧
    Alike [[104, 105]] (.struct [(['a'], .bytes), (['b'], .seq (.uint 8)), (['c'], .value)])
      (.obj [(['a'], exPh 0), (['b'], exPh 0), (['c'], exPh 0)]) := by
  have hp : ¬ PhTree [(['a'], exPh 0), (['b'], exPh 0), (['c'], exPh 0)] := by
    rintro ⟨kt, hm, hd⟩
    have hd := unescape_complete hd
    simp only [List.mem_cons, List.not_mem_nil, or_false] at hm
    rcases hm with rfl | rfl | rfl <;> exact absurd hd (by decide +kernel)
  have hu : UsualPh [(phKey, .bool true), (numKey, .num (decimal 0))] := ⟨true, _, rfl⟩
  have hd : ∀ (kt : Str × JTree), kt ∈ [(['a'], exPh 0), (['b'], exPh 0), (['c'], exPh 0)] → kt.2 = exPh 0 := by simp
  refine ⟨.obj [(['a'], bytesTree [104, 105]), (['b'], bytesTree [104, 105]), (['c'], bytesTree [104, 105])], ?_, ?_⟩
  · simp only [FilledTree, FilledMembers]
    exact Or.inr ⟨hp, _, rfl, _, _, rfl, exPh_filled (by decide) rfl, _, _, rfl, exPh_filled (by decide) rfl, _, _, rfl,
      exPh_filled (by decide) rfl, rfl⟩
  · simp only [Alike, AlikeM]
    refine ⟨fun h => absurd h hp, fun _ => ⟨?_, ?_, ?_, ?_, trivial⟩⟩
    · intro k t rest h
      simp only [List.cons.injEq, Prod.mk.injEq] at h
      rw [← h.1.1]
      decide
    · intro kt hm _
      rw [hd kt hm]
      exact fun _ => hu
    · intro kt hm _
      rw [hd kt hm]
      exact fun _ => ⟨hu, trivial⟩
    · intro kt hm _
      rw [hd kt hm]
      simp only [exPh, UsualTree]
      have : PhTree [(phKey, .bool true), (numKey, .num (decimal 0))] := ⟨_, List.mem_cons_self, phKey_denotes⟩
      exact ⟨⟨fun _ => hu, fun h => absurd this h⟩, fun h => absurd this h⟩
example : (decodeAll "51-[{\"a\":{\"_placeholder\":true,\"num\":0},\"b\":{\"_placeholder\":true,\"num\":0}}]".toList [[104, 105]]).okWith
    (firstArg fun a => (a.deserialize exExt (.struct [(['a'], .bytes), (['b'], .seq (.uint 8))])).okWith fun v => match v with
      | .struct [.bytes b, .seq [.uint m, .uint n]] => decide (b = [104, 105] ∧ m = 104 ∧ n = 105)
      | _ => false) = true := by decide +kernel

-- non-vacuity of `C24_plain`: an argument of a packet without attachments that is read
example : (decodeAll "2[[true,\"x\"]]".toList []).okWith
    (firstArg fun a => (a.deserialize exExt (.tuple [.bool, .str])).okWith fun v => match v with
      | .seq [.bool true, .str s] => decide (s = ['x'])
      | _ => false) = true := by decide +kernel

-- non-vacuity of `C24_types_partial`: a plain tree and a type without integer keys
example : IsText (.arr [.bool true]) "[true]".toList ∧ NoIntKeys (.seq .bool) ∧ PlainTree (.arr [.bool true]) ∧
    (fromStrA exExt [] (.seq .bool) "[true]".toList).isSome = true := by
  refine ⟨parsesTo_spec (by decide +kernel), by simp [NoIntKeys], ⟨by simp [PhFree, PhFreeL], by simp [UsualTree, UsualTrees], ?_⟩,
    by decide +kernel⟩
  exact ⟨.arr [.bool true], by simp [Denotes, DenotesL]⟩

/-- C24, second half, is false for integer-keyed maps, first keys with escapes, byte
targets of strings with lone surrogates, and 128-bit targets of numbers with a fraction. -/
theorem C24_counterexample :
    (∃ ty t s, IsText t s ∧ PhFree t ∧ (fromStr exExt ty s).isSome ∧ fromStrA exExt [] ty s = none ∧ ¬ NoIntKeys ty) ∧
    (∃ ty t s, IsText t s ∧ PhFree t ∧ (fromStr exExt ty s).isSome ∧ fromStrA exExt [] ty s = none ∧ ¬ UsualTree t) ∧
    (∃ ty t s, IsText t s ∧ PhFree t ∧ (fromStr exExt ty s).isSome ∧ fromStrA exExt [] ty s = none ∧
      ¬ ∃ d, Denotes t d) ∧
    (∃ ty t s, IsText t s ∧ PhFree t ∧ fromStr exExt ty s = none ∧ (fromStrA exExt [] ty s).isSome ∧ ¬ WholeInt ty t) := by
  refine ⟨⟨.imap .bool, .obj [(['1'], .bool true)], "{\"1\":true}".toList, parsesTo_spec (by decide +kernel),
      exKey_free _ (by decide +kernel), by decide +kernel, ?_, by simp [NoIntKeys]⟩,
    ⟨.map .bool, .obj [(['\\', 'n'], .bool true)], "{\"\\n\":true}".toList, parsesTo_spec (by decide +kernel),
      exKey_free _ (by decide +kernel), by decide +kernel, ?_, ?_⟩,
    ⟨.bytes, .str "\\ud800".toList, "\"\\ud800\"".toList, parsesTo_spec (by decide +kernel),
      by simp [PhFree], by decide +kernel, ?_, ?_⟩,
    ⟨.wide true, .num "1.5".toList, "1.5".toList, parsesTo_spec (by decide +kernel), by simp [PhFree], ?_, by decide +kernel,
      by simp [WholeInt]⟩⟩
  · exact Option.isNone_iff_eq_none.1 (by decide +kernel)
  · exact Option.isNone_iff_eq_none.1 (by decide +kernel)
  · intro h
    simp only [UsualTree] at h
    exact h.1.2 (phTree_one (by decide +kernel)) _ _ _ rfl (by simp)
  · exact Option.isNone_iff_eq_none.1 (by decide +kernel)
  · rintro ⟨d, h⟩
    simp only [Denotes] at h
    obtain ⟨s, _, h⟩ := h
    have := unescape_complete h
    have h2 : (unescape "\\ud800".toList).isNone = true := by decide +kernel
    rw [this] at h2
    simp at h2
  · exact Option.isNone_iff_eq_none.1 (by decide +kernel)

end SIO
