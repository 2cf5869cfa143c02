import Verif.Lemmas.Regex
/-
Uniqueness of the packet decomposition; when a decomposition is the longest one.
-/
namespace SIO
open Spec

theorem digits_split {a y g h : Str} (ha : ∀ x ∈ a, x.isDigit = true) (hy : ∀ x ∈ y, x.isDigit = true)
    (hg : NoDigitHead g) (hh : NoDigitHead h) (he : a ++ g = y ++ h) : a = y ∧ g = h := by
  induction a generalizing y with
  | nil =>
    cases y with
    | nil => exact ⟨rfl, by simpa using he⟩
    | cons d y =>
      simp at he
      have := hg d (by simp [he])
      rw [hy d (by simp)] at this
      simp at this
  | cons b a ih =>
    cases y with
    | nil =>
      simp at he
      have := hh b (by simp [← he])
      rw [ha b (by simp)] at this
      simp at this
    | cons d y =>
      simp at he
      obtain ⟨rfl, he⟩ := he
      have := ih (fun x hx => ha x (by simp [hx])) (fun x hx => hy x (by simp [hx])) he
      exact ⟨by rw [this.1], this.2⟩

theorem part_id_digits {i : Option Str} (hi : ∀ x, i = some x → IsDec x) :
    ∀ x ∈ part [] i, x.isDigit = true := by
  cases i with
  | none => simp
  | some x => simpa using (hi x rfl).digits

theorem part_nil_inj {i j : Option Str} (hi : ∀ x, i = some x → x ≠ []) (hj : ∀ x, j = some x → x ≠ [])
    (h : part [] i = part [] j) : i = j := by
  cases i with
  | none =>
    cases j with
    | none => rfl
    | some y => simp at h; exact absurd h (hj y rfl)
  | some x =>
    cases j with
    | none => simp at h; exact absurd h (hi x rfl)
    | some y => simp at h; rw [h]

theorem isDec_ne_nil {x : Str} (h : IsDec x) : x ≠ [] := by
  obtain ⟨c, cs, rfl, _⟩ := h.head
  simp

theorem idArgs_unique {i g i' g' : Option Str} (hi : ∀ x, i = some x → IsDec x)
    (hg : ∀ x, g = some x → IsBracketed x) (hi' : ∀ x, i' = some x → IsDec x)
    (hg' : ∀ x, g' = some x → IsBracketed x)
    (h : part [] i ++ part [] g = part [] i' ++ part [] g') : i = i' ∧ g = g' := by
  have := digits_split (part_id_digits hi) (part_id_digits hi') (part_args_noDigit hg)
    (part_args_noDigit hg') h
  exact ⟨part_nil_inj (fun x hx => isDec_ne_nil (hi x hx)) (fun x hx => isDec_ne_nil (hi' x hx)) this.1,
    part_nil_inj (fun x hx => (hg x hx).ne_nil) (fun x hx => (hg' x hx).ne_nil) this.2⟩

/-- Kind, attachment count and the rest of a packet text are determined by the text. -/
theorem head_unique {p q : Parts} (hp : p.Wf) (hq : q.Wf) (h : p.text = q.text) :
    p.kind = q.kind ∧ p.att = q.att ∧ tailText p.ns p.id p.args = tailText q.ns q.id q.args := by
  rw [Parts.text_eq, Parts.text_eq] at h
  simp only [List.cons.injEq] at h
  refine ⟨h.1, ?_⟩
  have h := h.2
  cases ha : p.att with
  | none =>
    cases hb : q.att with
    | none => exact ⟨rfl, by simpa [ha, hb] using h⟩
    | some b =>
      rw [ha, hb] at h
      simp [part] at h
      exact (tail_not_dash (hq.att b hb) hp.tail h.symm).elim
  | some a =>
    cases hb : q.att with
    | none =>
      rw [ha, hb] at h
      simp [part] at h
      exact (tail_not_dash (hp.att a ha) hq.tail h).elim
    | some b =>
      rw [ha, hb] at h
      simp [part] at h
      have := attDash_unique (hp.att a ha) (hq.att b hb) h
      exact ⟨by rw [this.1], this.2⟩

theorem tail_none_head {i g : Option Str} (hi : ∀ x, i = some x → IsDec x)
    (hg : ∀ x, g = some x → IsBracketed x) (r : Str) : part [] i ++ part [] g ≠ '/' :: r := by
  intro h
  cases i with
  | some x =>
    obtain ⟨c, cs, rfl, hc⟩ := (hi x rfl).head
    simp at h
    rw [h.1] at hc
    simp at hc
  | none =>
    cases g with
    | none => simp at h
    | some y =>
      obtain ⟨w, rfl, _⟩ := hg y rfl
      simp at h

/-- Presence of the namespace part is determined by the text. -/
theorem ns_isSome_unique {p q : Parts} (hp : p.Wf) (hq : q.Wf) (h : p.text = q.text) :
    p.ns.isSome = q.ns.isSome := by
  have ht := (head_unique hp hq h).2.2
  cases hn : p.ns with
  | none =>
    cases hm : q.ns with
    | none => rfl
    | some m =>
      obtain ⟨c, cs, hc, _⟩ := hq.ns m hm
      rw [hn, hm] at ht
      simp [tailText, hc] at ht
      exact (tail_none_head hp.id hp.args _ ht).elim
  | some n =>
    cases hm : q.ns with
    | some m => rfl
    | none =>
      obtain ⟨c, cs, hc, _⟩ := hp.ns n hn
      rw [hn, hm] at ht
      simp [tailText, hc] at ht
      exact (tail_none_head hq.id hq.args _ ht.symm).elim

/-- The decomposition is determined by the text and the length of the namespace. -/
theorem parts_unique_of_len {p q : Parts} (hp : p.Wf) (hq : q.Wf) (h : p.text = q.text)
    (hl : p.nsLen = q.nsLen) : p = q := by
  obtain ⟨hk, ha, ht⟩ := head_unique hp hq h
  have hs := ns_isSome_unique hp hq h
  have : p.ns = q.ns ∧ part [] p.id ++ part [] p.args = part [] q.id ++ part [] q.args := by
    cases hn : p.ns with
    | none =>
      rw [hn] at hs
      have hm : q.ns = none := by simpa using hs.symm
      rw [hn, hm] at ht
      exact ⟨hm.symm, by simpa [tailText] using ht⟩
    | some n =>
      rw [hn] at hs
      obtain ⟨m, hm⟩ := Option.isSome_iff_exists.1 hs.symm
      rw [hn, hm] at ht
      simp only [tailText, part_some, List.append_assoc, List.cons_append, List.nil_append] at ht
      have := List.append_inj ht (by simpa [Parts.nsLen, hn, hm] using hl)
      simp only [List.cons.injEq, true_and] at this
      exact ⟨by rw [this.1, hm], this.2⟩
  obtain ⟨hi, hg⟩ := idArgs_unique hp.id hp.args hq.id hq.args this.2
  obtain ⟨k, a, n, i, g⟩ := p
  obtain ⟨k', a', n', i', g'⟩ := q
  simp_all

theorem longest_unique {p q : Parts} (hp : p.Wf) (hq : q.Wf) (h : p.text = q.text)
    (lp : p.Longest) (lq : q.Longest) : p = q :=
  parts_unique_of_len hp hq h (Nat.le_antisymm (lq p hp h) (lp q hq h.symm))

theorem longest_of_none {p : Parts} (hp : p.Wf) (h : p.ns = none) : p.Longest := by
  intro q hq he
  have := ns_isSome_unique hq hp he
  rw [h] at this
  have : q.ns = none := by simpa using this
  simp [Parts.nsLen, this]

/-- Two different namespace splits of the same text: the longer one cuts the argument part. -/
theorem longer_split {p q : Parts} (hp : p.Wf) (hq : q.Wf) (h : q.text = p.text)
    (hl : p.nsLen < q.nsLen) :
    ∃ n g u g', p.ns = some n ∧ p.args = some g ∧ q.args = some g' ∧
      q.ns = some (n ++ ',' :: (part [] p.id ++ u)) ∧ g = u ++ (',' :: (part [] q.id ++ g')) := by
  obtain ⟨_, _, ht⟩ := head_unique hq hp h
  have hs := ns_isSome_unique hq hp h
  cases hm : q.ns with
  | none => simp [Parts.nsLen, hm] at hl
  | some m =>
    rw [hm] at hs
    obtain ⟨n, hn⟩ := Option.isSome_iff_exists.1 hs.symm
    rw [hn, hm] at ht
    simp only [tailText, part_some, List.append_assoc, List.cons_append, List.nil_append] at ht
    simp [Parts.nsLen, hn, hm] at hl
    rcases List.append_eq_append_iff.1 ht with ⟨a', ha, hb⟩ | ⟨c', hc, hd⟩
    · rw [ha] at hl; simp at hl; omega
    · cases c' with
      | nil => rw [hc] at hl; simp at hl
      | cons x c' =>
        simp only [List.cons_append, List.cons.injEq] at hd
        obtain ⟨rfl, hd⟩ := hd
        -- hd : part p.id ++ part p.args = c' ++ ',' :: (part q.id ++ part q.args)
        rcases List.append_eq_append_iff.1 hd with ⟨a', ha, hb⟩ | ⟨c'', hc'', hd''⟩
        · cases hg : p.args with
          | none => rw [hg] at hb; simp at hb
          | some g =>
            rw [hg] at hb
            simp at hb
            cases hg' : q.args with
            | some g' =>
              rw [hg'] at hb
              simp at hb
              exact ⟨n, g, a', g', hn, rfl, rfl, by rw [hc, ha], hb⟩
            | none =>
              exfalso
              rw [hg'] at hb
              simp at hb
              obtain ⟨w, rfl, _⟩ := hp.args g hg
              have hlast := congrArg List.getLast? hb
              cases hi : q.id with
              | none => rw [hi] at hlast; simp [List.getLast?_cons] at hlast
              | some y =>
                rw [hi] at hlast
                have hy := (hq.id y hi).digits
                have hne := isDec_ne_nil (hq.id y hi)
                have := List.getLast?_eq_some_getLast hne
                simp [List.getLast?_append, List.getLast?_cons, this] at hlast
                have := hy _ (List.getLast_mem hne)
                rw [← hlast] at this
                simp at this
        · exfalso
          have hdig := part_id_digits hp.id
          cases c'' with
          | cons y c'' =>
            simp at hd''
            have := hdig ',' (by rw [hc'', ← hd''.1]; simp)
            simp at this
          | nil =>
            simp at hd''
            cases hg : p.args with
            | none => rw [hg] at hd''; simp at hd''
            | some g =>
              obtain ⟨w, rfl, _⟩ := hp.args g hg
              rw [hg] at hd''
              simp at hd''

/-- The sent decomposition is found again iff no comma of the arguments is followed by an
optional numeral and `[`. -/
theorem longest_iff {p : Parts} (hp : p.Wf) {n g : Str} (hn : p.ns = some n) (hg : p.args = some g) :
    p.Longest ↔ ¬ Ambiguous g := by
  constructor
  · rintro hl ⟨u, d, r, rfl, hd⟩
    obtain ⟨w, hw, hwn⟩ := hp.args _ hg
    obtain ⟨c, cs, rfl, hc, hcs⟩ := hp.ns n hn
    -- the bracketed rest
    have hr : IsBracketed ('[' :: r) := by
      cases hre : r.getLast? with
      | none =>
        rw [List.getLast?_eq_none_iff] at hre
        subst hre
        have h1 : u ++ (',' :: (d ++ ['['])) = (u ++ ',' :: d) ++ ['['] := by simp
        have h2 : ('[' :: (w ++ [']']) : Str) = ('[' :: w) ++ [']'] := by simp
        rw [h1, h2] at hw
        have := (List.append_inj' hw rfl).2
        simp at this
      | some z =>
        obtain ⟨r', rfl⟩ := List.getLast?_eq_some_iff.1 hre
        have h1 : u ++ (',' :: (d ++ ('[' :: (r' ++ [z])))) = (u ++ ',' :: (d ++ '[' :: r')) ++ [z] := by simp
        have h2 : ('[' :: (w ++ [']']) : Str) = ('[' :: w) ++ [']'] := by simp
        rw [h1, h2] at hw
        have := List.append_inj' hw rfl
        have hz : z = ']' := by simpa using this.2
        subst hz
        refine ⟨r', rfl, ?_⟩
        intro x hx hxn
        have hx1 : x ∈ '[' :: w := by rw [← this.1]; simp [hx]
        simp at hx1
        rcases hx1 with rfl | hx1
        · simp at hxn
        · exact hwn x hx1 hxn
    have hun : ∀ x ∈ u, x ≠ '\n' := by
      intro x hx hxn
      have : x ∈ ('[' :: (w ++ [']'])) := by rw [← hw]; simp [hx]
      simp at this
      rcases this with rfl | h | rfl
      · simp at hxn
      · exact hwn x h hxn
      · simp at hxn
    have hdig := part_id_digits hp.id
    let q : Parts := ⟨p.kind, p.att, some (('/' :: c :: cs) ++ ',' :: (part [] p.id ++ u)),
      if d = [] then none else some d, some ('[' :: r)⟩
    have hq : q.Wf := by
      refine ⟨hp.kind, hp.att, ?_, ?_, ?_⟩
      · intro x hx
        simp only [q, Option.some.injEq] at hx
        subst hx
        refine ⟨c, cs ++ ',' :: (part [] p.id ++ u), by simp, hc, ?_⟩
        intro x hx hxn
        simp at hx
        rcases hx with h | rfl | h | h
        · exact hcs x h hxn
        · simp at hxn
        · have := hdig x h; rw [hxn] at this; simp at this
        · exact hun x h hxn
      · intro x hx
        simp only [q] at hx
        split at hx
        · simp at hx
        · rename_i hne
          simp at hx
          subst hx
          exact hd.resolve_left hne
      · intro x hx
        simp only [q, Option.some.injEq] at hx
        subst hx
        exact hr
    have hpart : part [] q.id = d := by
      simp only [q]
      split
      · rename_i h; simp [h]
      · simp
    have := hl q hq (by
      rw [Parts.text_eq, Parts.text_eq]
      simp only [tailText, hpart, hn, hg]
      simp [q])
    simp [Parts.nsLen, q, hn] at this
    omega
  · intro ha q hq he
    rcases Nat.lt_or_ge p.nsLen q.nsLen with hlt | hge
    · obtain ⟨n', g', u, g'', _, h2, h3, _, h5⟩ := longer_split hp hq he hlt
      rw [hg] at h2
      simp at h2
      subst h2
      exfalso
      obtain ⟨w, hw, _⟩ := hq.args g'' h3
      apply ha
      refine ⟨u, part [] q.id, w ++ [']'], by rw [h5, hw], ?_⟩
      cases hi : q.id with
      | none => left; rfl
      | some y => right; simpa using hq.id y hi
    · exact hge

end SIO
