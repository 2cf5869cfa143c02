import Verif.Spec.Borrow
import Verif.Lemmas.Deserialize
/-
Reading into borrowed targets.
-/
namespace SIO
open Spec

theorem enter_some {α : Type} {d : Nat} {f : Nat → Option α} {v : α} : enter d f = some v ↔ 1 < d ∧ f (d - 1) = some v := by
  unfold enter
  split
  · simp; omega
  · exact ⟨fun h => ⟨by omega, h⟩, fun h => h.2⟩

theorem allSome_and {α β : Type} {f g : α → Option β} {P : α → Prop} : ∀ {l : List α} {vs : List β},
    (∀ a ∈ l, ∀ v, f a = some v ↔ P a ∧ g a = some v) →
    (allSome f l = some vs ↔ (∀ a ∈ l, P a) ∧ allSome g l = some vs)
  | [], vs, _ => by simp [allSome]
  | a :: l, vs, h => by
    have ih := fun us => allSome_and (l := l) (vs := us) (fun b hb => h b (List.mem_cons_of_mem _ hb))
    have ha := h a List.mem_cons_self
    simp only [allSome]
    constructor
    · cases hf : f a with
      | none => simp
      | some v =>
        have := (ha v).1 hf
        cases hl : allSome f l with
        | none => simp
        | some w =>
          have h2 := (ih w).1 hl
          intro he
          refine ⟨fun b hb => ?_, ?_⟩
          · rcases List.mem_cons.1 hb with rfl | hb
            · exact this.1
            · exact h2.1 b hb
          · simpa [this.2, h2.2] using he
    · rintro ⟨hP, he⟩
      cases hg : g a with
      | none => simp [hg] at he
      | some v =>
        have := (ha v).2 ⟨hP a List.mem_cons_self, hg⟩
        cases hl : allSome g l with
        | none => simp [hg, hl] at he
        | some w =>
          have h2 := (ih w).2 ⟨fun b hb => hP b (List.mem_cons_of_mem _ hb), hl⟩
          simpa [this, h2, hg, hl] using he

theorem map_and {α β : Type} {o o' : Option α} {P : Prop} {f : α → β} (h : ∀ v, o = some v ↔ P ∧ o' = some v) (v : β) :
    o.map f = some v ↔ P ∧ o'.map f = some v := by
  simp only [Option.map_eq_some_iff]
  constructor
  · rintro ⟨a, ha, rfl⟩
    exact ⟨((h a).1 ha).1, a, ((h a).1 ha).2, rfl⟩
  · rintro ⟨hP, a, ha, rfl⟩
    exact ⟨a, (h a).2 ⟨hP, ha⟩, rfl⟩

theorem enter_and {β : Type} {d : Nat} {f g : Nat → Option β} {P : Prop} (h : ∀ d v, f d = some v ↔ P ∧ g d = some v)
    (v : β) : enter d f = some v ↔ P ∧ enter d g = some v := by
  rw [enter_some, enter_some, h (d - 1) v]
  exact and_left_comm

theorem keyed_mem : ∀ {kts w : List (Str × JTree)}, keyed kts = some w →
    (∀ kt ∈ w, ∃ raw, (raw, kt.2) ∈ kts ∧ StrDenotes raw kt.1) ∧ ∀ kt ∈ kts, ∃ k, (k, kt.2) ∈ w ∧ StrDenotes kt.1 k
  | [], w, h => by
    simp [keyed, allSome] at h
    subst h
    simp
  | (k, t) :: kts, w, h => by
    simp only [keyed, allSome] at h
    cases hk : unescape k with
    | none => simp [hk] at h
    | some k' =>
      simp only [hk, Option.map_some, Option.map_eq_some_iff] at h
      obtain ⟨w', hw, rfl⟩ := h
      have ih := keyed_mem (kts := kts) hw
      have hd := (unescape_iff _ _).1 hk
      constructor
      · intro kt hkt
        rcases List.mem_cons.1 hkt with rfl | hkt
        · exact ⟨k, List.mem_cons_self, hd⟩
        · obtain ⟨raw, hr, h⟩ := ih.1 kt hkt
          exact ⟨raw, List.mem_cons_of_mem _ hr, h⟩
      · intro kt hkt
        rcases List.mem_cons.1 hkt with rfl | hkt
        · exact ⟨k', List.mem_cons_self, hd⟩
        · obtain ⟨k2, hr, h⟩ := ih.2 kt hkt
          exact ⟨k2, List.mem_cons_of_mem _ hr, h⟩

theorem keyed_all {kts w : List (Str × JTree)} {P : JTree → Prop} (h : keyed kts = some w) :
    (∀ kt ∈ w, P kt.2) ↔ ∀ kt ∈ kts, P kt.2 := by
  obtain ⟨h1, h2⟩ := keyed_mem h
  constructor
  · intro hP kt hkt
    obtain ⟨k, hk, _⟩ := h2 kt hkt
    exact hP (k, kt.2) hk
  · intro hP kt hkt
    obtain ⟨k, hk, _⟩ := h1 kt hkt
    exact hP (k, kt.2) hk

/-- What is read of the members of an object. -/
theorem keyed_and {β : Type} {kts : List (Str × JTree)} {f g : List (Str × JTree) → Option β} {P : Prop}
    (h : ∀ w v, keyed kts = some w → (f w = some v ↔ P ∧ g w = some v)) (v : β) :
    (keyed kts).bind f = some v ↔ P ∧ (keyed kts).bind g = some v := by
  cases hk : keyed kts with
  | none => simp
  | some w =>
    simp only [Option.bind_some]
    exact h w v hk

theorem missing_owned (ty : Ty) : missing (owned ty) = missing ty := by
  cases ty <;> rfl

theorem unitVariant_owned (k : Str) : ∀ vs : List (Str × Ty), unitVariant (ownedF vs) k = unitVariant vs k
  | [] => rfl
  | (n, ty) :: vs => by
    simp only [ownedF, unitVariant, unitVariant_owned k vs]
    cases ty <;> rfl

theorem deByte_owned (ty : Ty) (b : UInt8) : deByte (owned ty) b = deByte ty b := by
  cases ty <;> rfl

theorem deBytes_owned : ∀ (tys : List Ty) (b : Bytes), deBytes (ownedL tys) b = deBytes tys b
  | [], _ => rfl
  | _ :: _, [] => rfl
  | ty :: tys, b :: bs => by simp only [ownedL, deBytes, deByte_owned, deBytes_owned tys bs]

theorem ownedF_snd : ∀ fs : List (Str × Ty), (ownedF fs).map Prod.snd = ownedL (fs.map Prod.snd)
  | [] => rfl
  | (n, ty) :: fs => by simp only [ownedF, ownedL, List.map_cons, ownedF_snd fs]

theorem plain_denotes {raw : Str} (h : IsStrBody raw) : '\\' ∉ raw → StrDenotes raw raw := by
  induction h with
  | nil => exact fun _ => .nil
  | char c s h1 h2 h3 _ ih => exact fun hn => .char c s s h1 h2 h3 (ih fun h => hn (List.mem_cons_of_mem _ h))
  | esc => simp
  | uni => simp

/-- The tree of some text. -/
def Written (t : JTree) : Prop := ∃ s, IsVal t s

theorem elems_written : ∀ {ts : List JTree} {b : Str}, IsElems ts b → ∀ t ∈ ts, Written t
  | [], _, _, _, ht => by simp at ht
  | u :: ts, b, h, t, ht => by
    simp only [IsElems] at h
    obtain ⟨w1, v, w2, b', rfl, _, _, hv, h⟩ := h
    rcases List.mem_cons.1 ht with rfl | ht
    · exact ⟨v, hv⟩
    · rcases h with ⟨rfl, _⟩ | ⟨_, b'', _, h⟩
      · simp at ht
      · exact elems_written h t ht

theorem members_written : ∀ {kts : List (Str × JTree)} {b : Str}, IsMembers kts b → ∀ kt ∈ kts, Written kt.2
  | [], _, _, _, ht => by simp at ht
  | (k, u) :: ts, b, h, t, ht => by
    simp only [IsMembers] at h
    obtain ⟨w1, w2, w3, v, w4, b', rfl, _, _, _, _, _, hv, h⟩ := h
    rcases List.mem_cons.1 ht with rfl | ht
    · exact ⟨v, hv⟩
    · rcases h with ⟨rfl, _⟩ | ⟨_, b'', _, h⟩
      · simp at ht
      · exact members_written h t ht

theorem arr_written {ts : List JTree} (h : Written (.arr ts)) : ∀ t ∈ ts, Written t := by
  obtain ⟨s, h⟩ := h
  simp only [IsVal] at h
  obtain ⟨b, _, h⟩ := h
  exact elems_written h

theorem obj_written {kts : List (Str × JTree)} (h : Written (.obj kts)) : ∀ kt ∈ kts, Written kt.2 := by
  obtain ⟨s, h⟩ := h
  simp only [IsVal] at h
  obtain ⟨b, _, h⟩ := h
  exact members_written h

theorem keyed_written {kts w : List (Str × JTree)} (h : keyed kts = some w) (hk : ∀ kt ∈ kts, Written kt.2) :
    ∀ kt ∈ w, Written kt.2 := (keyed_all h).2 hk

theorem unescaped_iff {raw s : Str} (h : Written (.str raw)) :
    unescaped (.str raw) = some s ↔ PlainText (.str raw) ∧ unescape raw = some s := by
  obtain ⟨_, h⟩ := h
  simp only [IsVal] at h
  simp only [unescaped, PlainText, JTree.str.injEq, forall_eq']
  by_cases hn : '\\' ∈ raw
  · simp [hn]
  · simp [hn, unescape_complete (plain_denotes h.2 hn)]

/-- A string without escapes denotes itself. -/
theorem plain_unescape {raw : Str} (h : Written (.str raw)) (hp : PlainText (.str raw)) : unescape raw = some raw := by
  obtain ⟨_, h⟩ := h
  simp only [IsVal] at h
  exact unescape_complete (plain_denotes h.2 (hp raw rfl))

/-- Nothing is borrowed from a boolean or a number. -/
theorem borrows_flat {t : JTree} (h1 : ∀ r, t ≠ .str r) (h2 : ∀ ts, t ≠ .arr ts) (h3 : ∀ kts, t ≠ .obj kts) :
    ∀ ty : Ty, Borrows ty t
  | .option ty => by simp only [Borrows]; exact borrows_flat h1 h2 h3 ty
  | .newtype ty => by simp only [Borrows]; exact borrows_flat h1 h2 h3 ty
  | .bstr => by simp only [Borrows]; exact fun r h => absurd h (h1 r)
  | .bbytes => by simp only [Borrows]; exact ⟨fun r h => absurd h (h1 r), h2⟩
  | .seq _ => by simp only [Borrows]; exact fun r h => absurd h (h2 r)
  | .map _ => by simp only [Borrows]; exact fun r h => absurd h (h3 r)
  | .imap _ => by simp only [Borrows]; exact fun r h => absurd h (h3 r)
  | .tuple _ => by simp only [Borrows]; exact fun r h => absurd h (h2 r)
  | .struct _ => by simp only [Borrows]; exact ⟨fun r h => absurd h (h2 r), fun r h => absurd h (h3 r)⟩
  | .enum _ => by simp only [Borrows]; exact fun _ _ h => absurd h (h3 _)
  | .wide _ | .bool | .uint _ | .int _ | .char | .float | .str | .bytes | .unit | .value | .ignored => by
    simp [Borrows]

theorem fields_flat {kts : List (Str × JTree)} (h : ∀ kt ∈ kts, ∀ ty, Borrows ty kt.2) : ∀ fs, BorrowsM fs kts
  | [] => by simp [BorrowsM]
  | (n, ty) :: fs => by simp only [BorrowsM]; exact ⟨fun kt hkt _ => h kt hkt ty, fields_flat h fs⟩

theorem placeholder_flat {fin : Str → Bool} {bs : List Bytes} {kts : List (Str × JTree)} {b : Bytes}
    (h : mapView fin bs kts = .placeholder b) (fs : List (Str × Ty)) : BorrowsM fs kts := by
  refine fields_flat (fun kt hkt ty => ?_) fs
  unfold mapView at h
  split at h
  · simp at h
  · split at h
    · simp at h
    · split at h
      · split at h
        · simp only [List.mem_cons, List.not_mem_nil, or_false] at hkt
          rcases hkt with rfl | rfl <;> exact borrows_flat (by simp) (by simp) (by simp) ty
        · simp at h
      · simp at h

theorem tuple_and {f g : Option DVal} {fs gs : Option (List DVal)} {P Q : Prop} : (∀ v, f = some v ↔ P ∧ g = some v) →
    (∀ v, fs = some v ↔ Q ∧ gs = some v) → ∀ vs : List DVal, (match f with
      | none => none
      | some v => fs.map (v :: ·)) = some vs ↔
    (P ∧ Q) ∧ (match g with
      | none => none
      | some v => gs.map (v :: ·)) = some vs := by
  intro h1 h2 vs
  cases f with
  | none =>
    cases g with
    | none => simp
    | some v =>
      have : ¬ P := fun hp => by have := (h1 v).2 ⟨hp, rfl⟩; simp at this
      simp [this]
  | some v =>
    obtain ⟨hp, rfl⟩ := (h1 v).1 rfl
    simp only [hp, true_and]
    exact map_and h2 vs

/-- What is read of the member of that name. -/
theorem member_and {kts w : List (Str × JTree)} (hw : keyed kts = some w) {n : Str} {f g : JTree → Option DVal}
    {P : JTree → Prop} {m m' : Option DVal} (hm : m' = m) (h : ∀ kt ∈ kts, ∀ v, f kt.2 = some v ↔ P kt.2 ∧ g kt.2 = some v) (v : DVal) :
    (match w.filter (fun kt => kt.1 = n) with
      | [] => m
      | [kt] => f kt.2
      | _ => none) = some v ↔
    (∀ kt ∈ kts, StrDenotes kt.1 n → P kt.2) ∧ (match w.filter (fun kt => kt.1 = n) with
      | [] => m'
      | [kt] => g kt.2
      | _ => none) = some v := by
  subst hm
  obtain ⟨h1, h2⟩ := keyed_mem hw
  have hin : ∀ kt ∈ kts, StrDenotes kt.1 n → (n, kt.2) ∈ w.filter (fun kt => kt.1 = n) := by
    intro kt hkt hd
    obtain ⟨k, hk, hd'⟩ := h2 kt hkt
    have := SIO.StrDenotes.unique hd hd'
    subst this
    exact List.mem_filter.2 ⟨hk, by simp⟩
  have hout : ∀ kt ∈ w.filter (fun kt => kt.1 = n), ∃ raw, (raw, kt.2) ∈ kts ∧ StrDenotes raw n := by
    intro kt hkt
    obtain ⟨hkt, he⟩ := List.mem_filter.1 hkt
    obtain ⟨raw, hr, hd⟩ := h1 kt hkt
    have he : kt.1 = n := by simpa using he
    rw [he] at hd
    exact ⟨raw, hr, hd⟩
  match hf : w.filter (fun kt => kt.1 = n) with
  | [] =>
    rw [hf]
    refine ⟨fun h => ⟨fun kt hkt hd => ?_, h⟩, fun h => h.2⟩
    have := hin kt hkt hd
    rw [hf] at this
    simp at this
  | [kt] =>
    rw [hf]
    simp only
    obtain ⟨raw, hr, hd⟩ := hout kt (by rw [hf]; simp)
    rw [h (raw, kt.2) hr v]
    have : (∀ kt ∈ kts, StrDenotes kt.1 n → P kt.2) ↔ P kt.2 := by
      refine ⟨fun h => h (raw, kt.2) hr hd, fun h kt' hkt' hd' => ?_⟩
      have := hin kt' hkt' hd'
      rw [hf] at this
      simp only [List.mem_singleton] at this
      rw [← this] at h
      exact h
    rw [this]
  | _ :: _ :: _ => rw [hf]; simp

mutual
theorem de_borrow (x : Ext) : ∀ (ty : Ty) (d : Nat) (t : JTree) (_ : Written t) (v : DVal),
    de x d ty t = some v ↔ Borrows ty t ∧ de x d (owned ty) t = some v
  | .bstr, d, t, ht, v => by
    simp only [de, owned, Borrows]
    cases t with
    | str raw => exact map_and (fun s => unescaped_iff ht) v
    | _ => simp [unescaped]
  | .bbytes, d, t, ht, v => by
    simp only [de, owned, Borrows]
    cases t with
    | str raw =>
      simp only [Option.map_eq_some_iff, unescaped_iff ht, ne_eq, reduceCtorEq, not_false_eq_true, implies_true, and_true]
      constructor
      · rintro ⟨s, ⟨h1, h2⟩, rfl⟩
        exact ⟨h1, by simp [h2]⟩
      · rintro ⟨h1, h2⟩
        have := plain_unescape ht h1
        simp only [this, Option.some.injEq] at h2
        exact ⟨raw, ⟨h1, this⟩, h2⟩
    | _ => simp [unescaped]
  | .option ty, d, t, ht, v => by
    cases t with
    | null => simp [de, owned, borrows_flat]
    | _ =>
      simp only [de, owned, Borrows]
      exact map_and (de_borrow x ty d _ ht) v
  | .newtype ty, d, t, ht, v => by
    simp only [de, owned, Borrows]
    exact de_borrow x ty d _ ht v
  | .seq ty, d, t, ht, v => by
    cases t with
    | arr ts =>
      simp only [de, owned, Borrows, JTree.arr.injEq, forall_eq']
      exact enter_and (fun d v => map_and (fun v => allSome_and fun a ha v => de_borrow x ty d a (arr_written ht a ha) v) v) v
    | _ => simp [de, owned]
  | .map ty, d, t, ht, v => by
    cases t with
    | obj kts =>
      simp only [de, owned, Borrows, JTree.obj.injEq, forall_eq']
      refine enter_and (fun d v => keyed_and (fun w v hw => map_and (fun v => ?_) v) v) v
      rw [← keyed_all (P := Borrows ty) hw]
      exact allSome_and fun a ha v => map_and (de_borrow x ty d a.2 (keyed_written hw (obj_written ht) a ha)) v
    | _ => simp [de, owned]
  | .imap ty, d, t, ht, v => by
    cases t with
    | obj kts =>
      simp only [de, owned, Borrows, JTree.obj.injEq, forall_eq']
      refine enter_and (fun d v => keyed_and (fun w v hw => map_and (fun v => ?_) v) v) v
      rw [← keyed_all (P := Borrows ty) hw]
      refine allSome_and fun a ha v => ?_
      cases keyU64 a.1 with
      | none => simp
      | some k => exact map_and (de_borrow x ty d a.2 (keyed_written hw (obj_written ht) a ha)) v
    | _ => simp [de, owned]
  | .tuple tys, d, t, ht, v => by
    cases t with
    | arr ts =>
      simp only [de, owned, Borrows, JTree.arr.injEq, forall_eq']
      exact enter_and (fun d v => map_and (fun v => deTuple_borrow x tys d ts (arr_written ht) v) v) v
    | _ => simp [de, owned]
  | .struct fs, d, t, ht, v => by
    cases t with
    | arr ts =>
      simp only [de, owned, Borrows, JTree.arr.injEq, forall_eq', reduceCtorEq, false_implies, implies_true, and_true]
      exact enter_and (fun d v => map_and (fun v => deSeqFields_borrow x fs d ts (arr_written ht) v) v) v
    | obj kts =>
      simp only [de, owned, Borrows, JTree.obj.injEq, forall_eq', reduceCtorEq, false_implies, implies_true, true_and]
      exact enter_and (fun d v => keyed_and (fun w v hw => map_and (fun v => deFields_borrow x hw (obj_written ht) fs d v) v) v) v
    | _ => simp [de, owned]
  | .enum vs, d, t, ht, v => by
    cases t with
    | str raw =>
      simp only [de, owned, Borrows, reduceCtorEq, false_implies, implies_true, true_and]
      cases unescape raw with
      | none => simp
      | some k => simp [unitVariant_owned]
    | obj kts =>
      match kts with
      | [] => simp [de, owned]
      | (k, u) :: _ :: _ => simp [de, owned]
      | [(k, u)] =>
        simp only [de, owned, Borrows, JTree.obj.injEq, List.cons.injEq, Prod.mk.injEq, and_true, and_imp]
        have : (∀ k' u', k = k' → u = u' → BorrowsV vs k' u') ↔ BorrowsV vs k u :=
          ⟨fun h => h k u rfl rfl, fun h k' u' h1 h2 => h1 ▸ h2 ▸ h⟩
        rw [this]
        refine enter_and (fun d v => ?_) v
        cases hk : unescape k with
        | none => simp
        | some k' => exact map_and (deVariant_borrow x ((unescape_iff _ _).1 hk) vs d u (obj_written ht (k, u) (by simp))) v
    | _ => simp [de, owned]
  | .wide _, _, _, _, _ | .bool, _, _, _, _ | .uint _, _, _, _, _ | .int _, _, _, _, _ | .char, _, _, _, _ | .float, _, _, _, _
  | .str, _, _, _, _ | .bytes, _, _, _, _ | .unit, _, _, _, _ | .value, _, _, _, _ | .ignored, _, _, _, _ => by
    simp [de, owned, Borrows]
theorem deTuple_borrow (x : Ext) : ∀ (tys : List Ty) (d : Nat) (ts : List JTree) (_ : ∀ t ∈ ts, Written t)
    (vs : List DVal),
    deTuple x d tys ts = some vs ↔ BorrowsL tys ts ∧ deTuple x d (ownedL tys) ts = some vs
  | [], d, ts, _, vs => by simp [deTuple, ownedL, BorrowsL]
  | ty :: tys, d, [], _, vs => by simp [deTuple, ownedL, BorrowsL]
  | ty :: tys, d, t :: ts, ht, vs => by
    simp only [deTuple, ownedL, BorrowsL]
    exact tuple_and (de_borrow x ty d t (ht t (by simp))) (deTuple_borrow x tys d ts fun u hu => ht u (by simp [hu])) vs
theorem deSeqFields_borrow (x : Ext) : ∀ (fs : List (Str × Ty)) (d : Nat) (ts : List JTree) (_ : ∀ t ∈ ts, Written t)
    (vs : List DVal),
    deSeqFields x d fs ts = some vs ↔ BorrowsF fs ts ∧ deSeqFields x d (ownedF fs) ts = some vs
  | [], d, ts, _, vs => by simp [deSeqFields, ownedF, BorrowsF]
  | (n, ty) :: fs, d, [], _, vs => by simp [deSeqFields, ownedF, BorrowsF]
  | (n, ty) :: fs, d, t :: ts, ht, vs => by
    simp only [deSeqFields, ownedF, BorrowsF]
    exact tuple_and (de_borrow x ty d t (ht t (by simp))) (deSeqFields_borrow x fs d ts fun u hu => ht u (by simp [hu])) vs
theorem deFields_borrow (x : Ext) {kts w : List (Str × JTree)} (hw : keyed kts = some w)
    (ht : ∀ kt ∈ kts, Written kt.2) : ∀ (fs : List (Str × Ty)) (d : Nat)
    (vs : List DVal), deFields x d fs w = some vs ↔ BorrowsM fs kts ∧ deFields x d (ownedF fs) w = some vs
  | [], d, vs => by simp [deFields, ownedF, BorrowsM]
  | (n, ty) :: fs, d, vs => by
    simp only [deFields, ownedF, BorrowsM]
    exact tuple_and (fun v => member_and hw (missing_owned ty) (fun kt hkt v => de_borrow x ty d kt.2 (ht kt hkt) v) v)
      (deFields_borrow x hw ht fs d) vs
theorem deVariant_borrow (x : Ext) {raw k : Str} (hk : StrDenotes raw k) : ∀ (vs : List (Str × Ty)) (d : Nat) (t : JTree)
    (_ : Written t) (v : DVal), deVariant x d vs k t = some v ↔ BorrowsV vs raw t ∧ deVariant x d (ownedF vs) k t = some v
  | [], d, t, ht, v => by simp [deVariant, ownedF, BorrowsV]
  | (n, ty) :: vs, d, t, ht, v => by
    simp only [deVariant, ownedF, BorrowsV]
    by_cases h : n = k
    · subst h
      simp only [if_true, hk, true_implies, not_true_eq_false, false_implies, and_true]
      exact de_borrow x ty d t ht v
    · have : ¬ StrDenotes raw n := fun h' => h (SIO.StrDenotes.unique h' hk)
      simp only [h, if_false, this, false_implies, not_false_eq_true, true_implies, true_and]
      exact deVariant_borrow x hk vs d t ht v
end

mutual
theorem deA_borrow (x : Ext) (bs : List Bytes) : ∀ (ty : Ty) (d : Nat) (t : JTree) (_ : Written t) (v : DVal),
    deA x bs d ty t = some v ↔ Borrows ty t ∧ deA x bs d (owned ty) t = some v
  | .bstr, d, t, ht, v => by
    simp only [deA, owned, Borrows]
    cases t with
    | str raw => exact map_and (fun s => unescaped_iff ht) v
    | obj kts => simp [PlainText]
    | _ => simp [unescaped]
  | .bbytes, d, t, ht, v => by
    simp only [deA, owned, Borrows]
    cases t with
    | str raw =>
      simp only [Option.map_eq_some_iff, unescaped_iff ht, ne_eq, reduceCtorEq, not_false_eq_true, implies_true, and_true]
      constructor
      · rintro ⟨s, ⟨h1, h2⟩, rfl⟩
        exact ⟨h1, by simp [h2]⟩
      · rintro ⟨h1, h2⟩
        have := plain_unescape ht h1
        simp only [this, Option.some.injEq] at h2
        obtain ⟨_, rfl, h2⟩ := h2
        exact ⟨raw, ⟨h1, this⟩, h2⟩
    | obj kts => simp [PlainText]
    | _ => simp [unescaped]
  | .option ty, d, t, ht, v => by
    cases t with
    | null => simp [deA, owned, borrows_flat]
    | _ =>
      simp only [deA, owned, Borrows]
      exact map_and (deA_borrow x bs ty d _ ht) v
  | .newtype ty, d, t, ht, v => by
    simp only [deA, owned, Borrows]
    exact deA_borrow x bs ty d _ ht v
  | .seq ty, d, t, ht, v => by
    cases t with
    | arr ts =>
      simp only [deA, owned, Borrows, JTree.arr.injEq, forall_eq']
      exact enter_and (fun d v => map_and (fun v => allSome_and fun a ha v => deA_borrow x bs ty d a (arr_written ht a ha) v) v) v
    | obj kts => simp [deA, owned, Borrows, funext (deByte_owned ty)]
    | _ => simp [deA, owned]
  | .map ty, d, t, ht, v => by
    cases t with
    | obj kts =>
      simp only [deA, owned, Borrows, JTree.obj.injEq, forall_eq']
      refine enter_and (fun d v => ?_) v
      split
      case h_2 => simp
      refine keyed_and (fun w v hw => map_and (fun v => ?_) v) v
      rw [← keyed_all (P := Borrows ty) hw]
      exact allSome_and fun a ha v => map_and (deA_borrow x bs ty d a.2 (keyed_written hw (obj_written ht) a ha)) v
    | _ => simp [deA, owned]
  | .imap ty, d, t, ht, v => by
    cases t with
    | obj kts =>
      cases kts with
      | nil => simp [deA, owned, Borrows]
      | cons => simp [deA, owned]
    | _ => simp [deA, owned]
  | .tuple tys, d, t, ht, v => by
    cases t with
    | arr ts =>
      simp only [deA, owned, Borrows, JTree.arr.injEq, forall_eq']
      exact enter_and (fun d v => map_and (fun v => deTupleA_borrow x bs tys d ts (arr_written ht) v) v) v
    | obj kts => simp [deA, owned, Borrows, deBytes_owned]
    | _ => simp [deA, owned]
  | .struct fs, d, t, ht, v => by
    cases t with
    | arr ts =>
      simp only [deA, owned, Borrows, JTree.arr.injEq, forall_eq', reduceCtorEq, false_implies, implies_true, and_true]
      exact enter_and (fun d v => map_and (fun v => deSeqFieldsA_borrow x bs fs d ts (arr_written ht) v) v) v
    | obj kts =>
      simp only [deA, owned, Borrows, JTree.obj.injEq, forall_eq', reduceCtorEq, false_implies, implies_true, true_and]
      refine enter_and (fun d v => ?_) v
      split
      · simp
      · rename_i b hb
        simp [ownedF_snd, deBytes_owned, placeholder_flat hb fs]
      exact keyed_and (fun w v hw => map_and (fun v => deFieldsA_borrow x bs hw (obj_written ht) fs d v) v) v
    | _ => simp [deA, owned]
  | .enum vs, d, t, ht, v => by
    cases t with
    | str raw =>
      simp only [deA, owned, Borrows, reduceCtorEq, false_implies, implies_true, true_and]
      cases unescape raw with
      | none => simp
      | some k => simp [unitVariant_owned]
    | obj kts =>
      match kts with
      | [] => simp [deA, owned]
      | (k, u) :: _ :: _ => simp [deA, owned]
      | [(k, u)] =>
        simp only [deA, owned, Borrows, JTree.obj.injEq, List.cons.injEq, Prod.mk.injEq, and_true, and_imp]
        have : (∀ k' u', k = k' → u = u' → BorrowsV vs k' u') ↔ BorrowsV vs k u :=
          ⟨fun h => h k u rfl rfl, fun h k' u' h1 h2 => h1 ▸ h2 ▸ h⟩
        rw [this]
        refine enter_and (fun d v => ?_) v
        cases hk : unescape k with
        | none => simp
        | some k' => exact map_and (deVariantA_borrow x bs ((unescape_iff _ _).1 hk) vs d u (obj_written ht (k, u) (by simp))) v
    | _ => simp [deA, owned]
  | .wide _, _, _, _, _ | .bool, _, _, _, _ | .uint _, _, _, _, _ | .int _, _, _, _, _ | .char, _, _, _, _ | .float, _, _, _, _
  | .str, _, _, _, _ | .bytes, _, _, _, _ | .unit, _, _, _, _ | .value, _, _, _, _ | .ignored, _, _, _, _ => by
    simp [deA, owned, Borrows]
theorem deTupleA_borrow (x : Ext) (bs : List Bytes) : ∀ (tys : List Ty) (d : Nat) (ts : List JTree) (_ : ∀ t ∈ ts, Written t)
    (vs : List DVal),
    deTupleA x bs d tys ts = some vs ↔ BorrowsL tys ts ∧ deTupleA x bs d (ownedL tys) ts = some vs
  | [], d, ts, _, vs => by simp [deTupleA, ownedL, BorrowsL]
  | ty :: tys, d, [], _, vs => by simp [deTupleA, ownedL, BorrowsL]
  | ty :: tys, d, t :: ts, ht, vs => by
    simp only [deTupleA, ownedL, BorrowsL]
    exact tuple_and (deA_borrow x bs ty d t (ht t (by simp))) (deTupleA_borrow x bs tys d ts fun u hu => ht u (by simp [hu])) vs
theorem deSeqFieldsA_borrow (x : Ext) (bs : List Bytes) : ∀ (fs : List (Str × Ty)) (d : Nat) (ts : List JTree) (_ : ∀ t ∈ ts, Written t)
    (vs : List DVal),
    deSeqFieldsA x bs d fs ts = some vs ↔ BorrowsF fs ts ∧ deSeqFieldsA x bs d (ownedF fs) ts = some vs
  | [], d, ts, _, vs => by simp [deSeqFieldsA, ownedF, BorrowsF]
  | (n, ty) :: fs, d, [], _, vs => by simp [deSeqFieldsA, ownedF, BorrowsF]
  | (n, ty) :: fs, d, t :: ts, ht, vs => by
    simp only [deSeqFieldsA, ownedF, BorrowsF]
    exact tuple_and (deA_borrow x bs ty d t (ht t (by simp))) (deSeqFieldsA_borrow x bs fs d ts fun u hu => ht u (by simp [hu])) vs
theorem deFieldsA_borrow (x : Ext) (bs : List Bytes) {kts w : List (Str × JTree)} (hw : keyed kts = some w)
    (ht : ∀ kt ∈ kts, Written kt.2) : ∀ (fs : List (Str × Ty)) (d : Nat)
    (vs : List DVal), deFieldsA x bs d fs w = some vs ↔ BorrowsM fs kts ∧ deFieldsA x bs d (ownedF fs) w = some vs
  | [], d, vs => by simp [deFieldsA, ownedF, BorrowsM]
  | (n, ty) :: fs, d, vs => by
    simp only [deFieldsA, ownedF, BorrowsM]
    exact tuple_and (fun v => member_and hw (missing_owned ty) (fun kt hkt v => deA_borrow x bs ty d kt.2 (ht kt hkt) v) v)
      (deFieldsA_borrow x bs hw ht fs d) vs
theorem deVariantA_borrow (x : Ext) (bs : List Bytes) {raw k : Str} (hk : StrDenotes raw k) : ∀ (vs : List (Str × Ty)) (d : Nat) (t : JTree)
    (_ : Written t) (v : DVal), deVariantA x bs d vs k t = some v ↔ BorrowsV vs raw t ∧ deVariantA x bs d (ownedF vs) k t = some v
  | [], d, t, ht, v => by simp [deVariantA, ownedF, BorrowsV]
  | (n, ty) :: vs, d, t, ht, v => by
    simp only [deVariantA, ownedF, BorrowsV]
    by_cases h : n = k
    · subst h
      simp only [if_true, hk, true_implies, not_true_eq_false, false_implies, and_true]
      cases ty with
      | tuple tys =>
        cases t with
        | obj kts => simp [owned]
        | _ => exact deA_borrow x bs (.tuple tys) d _ ht v
      | _ => exact deA_borrow x bs _ d t ht v
    · have : ¬ StrDenotes raw n := fun h' => h (SIO.StrDenotes.unique h' hk)
      simp only [h, if_false, this, false_implies, not_false_eq_true, true_implies, true_and]
      exact deVariantA_borrow x bs hk vs d t ht v
end

/-- Which objects are seen as placeholders. -/
theorem mapView_iff {fin : Str → Bool} {bs : List Bytes} {kts : List (Str × JTree)} {v : Str} (ht : IsVal (.obj kts) v) :
    ∀ b, mapView fin bs kts = .placeholder b ↔
      ∃ z i, kts = [(phKey, .bool z), (numKey, .num (decimal i))] ∧ i < 2 ^ 64 ∧ bs[i]? = some b := by
  intro b
  constructor
  · intro h
    unfold mapView at h
    split at h
    · simp at h
    · rename_i k t rest
      split at h
      · simp at h
      · split at h
        · rename_i hk
          split at h
          · rename_i z k' l
            split at h
            · rename_i hk'
              split at h
              · rename_i n hn
                split at h
                · rename_i b' hb'
                  simp only [MapView.placeholder.injEq] at h
                  subst h
                  have hl : IsNum l := by
                    obtain ⟨_, _, h⟩ := ht
                    exact isMembers_num h k' l (by simp)
                  have := (readNum_iff hl (.pos n)).1 hn
                  rcases this with ⟨m, rfl, hm, he⟩ | ⟨_, _, _, _, he⟩ | ⟨_, _, _, he⟩
                  · simp at he
                    subst he
                    exact ⟨z, n, by rw [hk, hk']; rfl, hm, hb'⟩
                  · simp at he
                  · simp at he
                · simp at h
              · simp at h
            · simp at h
          · simp at h
        · simp at h
  · rintro ⟨z, i, rfl, hi, hb⟩
    rw [mapView_ph, readNum_decimal fin hi]
    simp [hb]

theorem readPart_owned : ∀ (ty : Ty) (t : JTree), readPart (owned ty) t = readPart ty t
  | .option ty, t => by simp only [owned, readPart, readPart_owned ty t]
  | .newtype ty, t => by simp only [owned, readPart, readPart_owned ty t]
  | .wide _, t => by simp only [owned]
  | .bool, t | .uint _, t | .int _, t | .char, t | .float, t | .str, t | .bytes, t | .bstr, t | .bbytes, t | .unit, t
  | .value, t | .ignored, t | .seq _, t | .map _, t | .imap _, t | .tuple _, t | .struct _, t | .enum _, t => by
    simp [owned, readPart]

/-- What is read is the whole value, or the target is an integer. -/
theorem readPart_borrow : ∀ (ty : Ty) (t : JTree), readPart ty t = t ∨
    (∀ u, Borrows ty u) ∧ ∀ x bs d u, deA x bs d (owned ty) u = deA x bs d ty u
  | .option ty, t => by
    rcases readPart_borrow ty t with h | ⟨h1, h2⟩
    · exact .inl (by simp only [readPart, h])
    · refine .inr ⟨fun u => by simp only [Borrows]; exact h1 u, fun x bs d u => ?_⟩
      cases u <;> simp only [owned, deA, h2]
  | .newtype ty, t => by
    rcases readPart_borrow ty t with h | ⟨h1, h2⟩
    · exact .inl (by simp only [readPart, h])
    · exact .inr ⟨fun u => by simp only [Borrows]; exact h1 u, fun x bs d u => by simp only [owned, deA, h2]⟩
  | .wide _, t => .inr ⟨fun u => by simp [Borrows], fun x bs d u => by simp only [owned]⟩
  | .bool, t | .uint _, t | .int _, t | .char, t | .float, t | .str, t | .bytes, t | .bstr, t | .bbytes, t | .unit, t
  | .value, t | .ignored, t | .seq _, t | .map _, t | .imap _, t | .tuple _, t | .struct _, t | .enum _, t => by
    exact .inl (by simp [readPart])

end SIO
