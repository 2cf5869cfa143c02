import Verif.Lemmas.Display
/-
C44: the text an application or the log sees of a decoded packet.
-/
namespace SIO
open Spec

theorem argDisplay_shown {fin : Str → Bool} {a : Arg} {t : JTree} {bs : List Bytes} (ht : IsVal t a.arg)
    (hb : a.attachments.map OwnedSubslice.deref = bs.map some) {x : Str} (h : a.display fin = .ok x) :
    ArgShown fin bs a.arg x := by
  unfold Arg.display at h
  split at h
  · rename_i v hv
    simp at h
    subst h
    have hp := valueText_prints (toJsonValue_wf hb hv)
    rcases toJsonValue_out fin ht hb with ⟨_, h2⟩ | ⟨_, d, u, h4, h5, ⟨h6, h2⟩ | ⟨h6, h2, h3⟩⟩
    · rw [hv] at h2; simp at h2
    · rw [hv] at h2
      cases h2
      exact ⟨d, v, v, ⟨t, ht, h4⟩, h5, by simp [h6], hp⟩
    · rw [hv] at h2
      rcases h3 with ⟨y, he, hy, _⟩ | ⟨_, _, _, _, _, _, _, he⟩
      · rw [he] at h2
        cases h2
        exact ⟨d, u, v, ⟨t, ht, h4⟩, h5, by simp [h6, hy], hp⟩
      · rw [he] at h2; simp at h2
  · simp at h

/-- The loop, for a later argument and for the first one. -/
theorem displayArgs_shown {fin : Str → Bool} {att : List (OwnedSubslice Bytes)} {bs : List Bytes}
    (hb : att.map OwnedSubslice.deref = bs.map some) (vs : List Str) (hv : ∀ v ∈ vs, ∃ t, IsVal t v) :
    ∀ (first : Bool) (x : Str), displayArgs fin first (vs.map fun t => ⟨t, att⟩) = .ok x →
      ∃ ts, ArgsShown fin bs vs ts ∧
        x = if vs = [] then [] else (if first then [] else ", ".toList) ++ commaList ts := by
  induction vs with
  | nil =>
    intro first x h
    simp [displayArgs] at h
    exact ⟨[], .nil, by simp [h]⟩
  | cons w vs ih =>
    intro first x h
    simp only [List.map_cons, displayArgs] at h
    cases ha : Arg.display fin ⟨w, att⟩ with
    | err e => exact e.elim
    | panic => rw [ha] at h; simp [bind, Res.bind] at h
    | ok y =>
      cases hr : displayArgs fin false (vs.map fun t => (⟨t, att⟩ : Arg)) with
      | err e => exact e.elim
      | panic => rw [ha, hr] at h; simp [bind, Res.bind] at h
      | ok z =>
        rw [ha, hr] at h
        simp only [bind, Res.bind, pure, Res.ok.injEq] at h
        obtain ⟨t, ht⟩ := hv w (by simp)
        obtain ⟨ts, h1, h2⟩ := ih (fun v hm => hv v (by simp [hm])) false z hr
        refine ⟨y :: ts, .cons (argDisplay_shown (a := ⟨w, att⟩) ht hb ha) h1, ?_⟩
        cases h1 with
        | nil => subst h; simp at h2; subst h2; simp [commaList]
        | cons _ _ =>
          subst h
          simp at h2
          subst h2
          simp [commaList]

theorem argsDisplay_shown {fin : Str → Bool} {A : Args} {vs : List Str} {bs : List Bytes} (hs : ArgsShow A vs bs)
    (hv : ∀ v ∈ vs, ∃ t, IsVal t v) {x : Str} (h : A.display fin = .ok x) :
    ∃ ts, ArgsShown fin bs vs ts ∧ x = "[".toList ++ commaList ts ++ "]".toList := by
  unfold Args.display at h
  rw [hs.iter] at h
  simp only [bind, Res.bind] at h
  split at h
  · rename_i y hy
    simp only [pure, Res.ok.injEq] at h
    obtain ⟨ts, h1, h2⟩ := displayArgs_shown hs.atts vs hv true y hy
    refine ⟨ts, h1, ?_⟩
    subst h
    cases h1 <;> simp at h2 <;> simp [h2, commaList]
  · rename_i e _; exact e.elim
  · simp at h

theorem debugId_idText (id : Option Nat) : debugId id = idText id := by
  cases id <;> simp [debugId, idText, natDec_decimal]

theorem means_displays {fin : Str → Bool} {p : Pkt} {vs : List Str} {bs : List Bytes} {body : Body} {pk : Packet} {ns x : Str}
    (hv : ∀ v ∈ vs, ∃ t, IsVal t v) (h7 : p.Means vs bs body) (hs : Shows pk ns body) (hx : pk.display fin = .ok x) :
    Displays fin body x := by
  obtain ⟨h8, h9⟩ := hs
  cases h7 with
  | connect =>
    simp only at h9
    simp [Packet.display, h9, bind, Res.bind, Data.display] at hx
    subst hx
    exact .connect
  | disconnect =>
    simp only at h9
    simp [Packet.display, h9, bind, Res.bind, Data.display] at hx
    subst hx
    exact .disconnect
  | event =>
    obtain ⟨A, h, hs⟩ := h9
    simp only [Packet.display, h, bind, Res.bind, Data.display] at hx
    split at hx
    · rename_i y hy
      obtain ⟨ts, h10, rfl⟩ := argsDisplay_shown hs hv hy
      simp only [pure, Res.ok.injEq] at hx
      have := Displays.event p.id vs bs ts h10
      rw [← hx, debugId_idText]
      simpa using this
    · rename_i e _; exact e.elim
    · simp at hx
  | ack i =>
    obtain ⟨A, h, hs⟩ := h9
    simp only [Packet.display, h, bind, Res.bind, Data.display] at hx
    split at hx
    · rename_i y hy
      obtain ⟨ts, h10, rfl⟩ := argsDisplay_shown hs hv hy
      simp only [pure, Res.ok.injEq] at hx
      have := Displays.ack i vs bs ts h10
      rw [← hx, natDec_decimal]
      simpa using this
    · rename_i e _; exact e.elim
    · simp at hx

/-- C44: a decoded packet that can be displayed is displayed as its kind, its id and its
arguments in order, each of them a JSON text standing for the value of the argument with
the attachments filled in. -/
theorem C44_display (fin : Str → Bool) (s : Str) (ms : List EMsg) (pk : Packet) (h : Decoded s ms pk) (x : Str)
    (hx : pk.display fin = .ok x) :
    ∃ (p : Pkt) (vs : List Str) (bs : List Bytes) (body : Body), p.Wf ∧ p.text = s ∧ p.Longest ∧ p.Fits ∧ p.ArgTexts vs ∧
      Payloads ms (bs.map Payload.binary) ∧ p.Means vs bs body ∧ Displays fin body x := by
  obtain ⟨p, vs, bs, body, h1, h2, h3, h4, h5, h6, h7, h8⟩ := decoded_means h
  exact ⟨p, vs, bs, body, h1, h2, h3, h4, h5, h6, h7, means_displays (argTexts_isVal h5) h7 h8 hx⟩

/-- Packet text, attachments, displayed text. -/
def displayed (s : Str) (bs : List Bytes) (x : Str) : Bool :=
  match decodeAll s bs with
  | .ok pk => decide (pk.display (fun _ => true) = .ok x)
  | _ => false

-- non-vacuity of `C44_display`: packets of every kind with their displayed texts
example : displayed "0".toList [] "Connect".toList = true := by decide +kernel
example : displayed "1".toList [] "Disconnect".toList = true := by decide +kernel
example : displayed "212[ \"a\" , {\"y\":null,\"x\":-3} ]".toList []
    "Event { id: Some(12), args: [\"a\", {\"x\":-3,\"y\":null}] }".toList = true := by decide +kernel
example : displayed "37[true]".toList [] "Ack { id: 7, args: [true] }".toList = true := by decide +kernel
example : displayed "61-7[{\"_placeholder\":true,\"num\":0},1]".toList [[1, 255]]
    "Ack { id: 7, args: [[1,255], 1] }".toList = true := by decide +kernel

end SIO
