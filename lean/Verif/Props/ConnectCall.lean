import Mathlib.Data.List.Forall2
import Mathlib.Data.List.Induction
import Verif.Connect
import Verif.Props.Url
import Verif.Props.ClientClose
import Verif.Lemmas.ClientConn
/-
C74: `connect` as a whole.
-/
namespace SIO
namespace Spec

/-- The execution of `connect` or `from_stream` with the given text that a schedule leads to. -/
def CRuns (cfg : RCfg) (parse : Str → Except Nat Url) (entry : Entry) (text : Str) (acts : List CAct) (st : CState)
    (tr : List CEv) : Prop := cexec cfg parse entry text .unpolled acts = some (st, tr)

/-- Where and how to connect for a text: host, port, encryption, and the url of the handshake. -/
inductive Target (parse : Str → Except Nat Url) (text : Str) : Str → Nat → Bool → Url → Prop where
  | plain (u v : Url) (host : Str) (hu : parse text = .ok u) (hs : u.scheme = "http".toList ∨ u.scheme = "ws".toList)
      (hh : u.host = some host) (hv : HandshakeUrl u "ws".toList none v)
      (hq : v.query = some (['&'].intercalate (pieces (u.query.getD []) none))) : Target parse text host (u.port.getD 80) false v
  | secure (u v : Url) (host : Str) (hu : parse text = .ok u) (hs : u.scheme = "https".toList ∨ u.scheme = "wss".toList)
      (hh : u.host = some host) (hv : HandshakeUrl u "wss".toList none v)
      (hq : v.query = some (['&'].intercalate (pieces (u.query.getD []) none))) : Target parse text host (u.port.getD 443) true v

/-- The text is no url, or its scheme is none of the four. -/
inductive BadUrl (parse : Str → Except Nat Url) (text : Str) : UrlFault → Prop where
  | parse (e : Nat) (h : parse text = .error e) : BadUrl parse text (.parse e)
  | scheme (u : Url) (h : parse text = .ok u) (hs : u.scheme ≠ "http".toList ∧ u.scheme ≠ "ws".toList ∧
      u.scheme ≠ "https".toList ∧ u.scheme ≠ "wss".toList) : BadUrl parse text (.bad (.invalidScheme u.scheme))

/-- The function of the application is called by `connect` only. -/
def dials (entry : Entry) (host : Str) (port : Nat) : List CEv :=
  match entry with
  | .connect => [.dial host port]
  | .fromStream => []

/-- What the application is told of an observation. -/
inductive CallerSees : Ev → CEv → Prop where
  | ok (sid : Str) : CallerSees (.connectReturned (.ok sid)) (.returned (.ok sid))
  | err (e : CErr) : CallerSees (.connectReturned (.err e)) (.returned (.err (.inner e)))
  | panic : CallerSees (.connectReturned .panic) (.returned .panic)
  | other (e : Ev) (h : ∀ r, e ≠ .connectReturned r) : CallerSees e (.seen e)

/-- The actions up to `Connection::new`. -/
def entering (entry : Entry) : List CAct :=
  match entry with
  | .connect => [.poll, .dialed (.ok ())]
  | .fromStream => [.poll]

/-- How far a call has come, by what was done and seen. -/
inductive Came (cfg : RCfg) (parse : Str → Except Nat Url) (entry : Entry) (text : Str) : List CAct → CState → List CEv → Prop where
  | start : Came cfg parse entry text [] .unpolled []
  | dropped : Came cfg parse entry text [.drop] .over []
  | badUrl (e : UrlFault) (h : BadUrl parse text e) :
      Came cfg parse entry text [.poll] .over [.returned (.err (.url text e))]
  | dialing (host : Str) (port : Nat) (sec : Bool) (v : Url) (h : Target parse text host port sec v)
      (he : entry = .connect) : Came cfg parse entry text [.poll] (.dialing ⟨host, port, some sec, v⟩) [.dial host port]
  | givenUp (host : Str) (port : Nat) (sec : Bool) (v : Url) (h : Target parse text host port sec v)
      (he : entry = .connect) : Came cfg parse entry text [.poll, .drop] .over [.dial host port]
  | refused (host : Str) (port : Nat) (sec : Bool) (v : Url) (e : Nat) (h : Target parse text host port sec v)
      (he : entry = .connect) :
      Came cfg parse entry text [.poll, .dialed (.err e)] .over [.dial host port, .returned (.err (.connection e))]
  | panicked (host : Str) (port : Nat) (sec : Bool) (v : Url) (h : Target parse text host port sec v)
      (he : entry = .connect) :
      Came cfg parse entry text [.poll, .dialed .panic] .over [.dial host port, .returned .panic]
  | inside (host : Str) (port : Nat) (sec : Bool) (v : Url) (h : Target parse text host port sec v) (acts : List Act)
      (s : Sys) (tr : List Ev) (ctr : List CEv) (hr : Runs cfg acts s tr) (ht : List.Forall₂ CallerSees tr ctr) :
      Came cfg parse entry text
        (entering entry ++ acts.map .inner) (.inside s)
        (dials entry host port ++ .handshake (some sec) v :: ctr)

/-- The observations that are no return of the call. -/
def others (tr : List CEv) : List Ev :=
  tr.filterMap fun
    | .seen e => some e
    | _ => none

def NoReturn (tr : List CEv) : Prop := ∀ r, .returned r ∉ tr

/-- What was done and seen before the call returns a client or an error, or panics. -/
def ReturnAfter (parse : Str → Except Nat Url) (text : Str) (acts : List CAct) (tr : List CEv) : Res ConnectErr Str → Prop
  | .ok sid => ∃ pre t post o, inbox (others tr) = pre ++ .text ('0' :: t) :: post ∧ (∀ w ∈ pre, ¬ IsOpen w) ∧
      parseOpen t = .ok o ∧ o.sid = sid
  | .err (.url t e) => tr = [] ∧ t = text ∧ BadUrl parse text e
  | .err (.connection e) => acts = [.poll, .dialed (.err e)] ∧ ∃ host port, tr = [.dial host port]
  | .err (.inner e) => (∃ n, e = .websocket n) ∨ e = .spawn ∨ e = .timeout .handshake ∨ e = .timeout .openPacket
  | .panic => (acts = [.poll, .dialed .panic] ∧ ∃ host port, tr = [.dial host port]) ∨
      (∃ r, .taskEnd r ∈ others tr) ∧ ∀ w ∈ inbox (others tr), ¬ IsOpen w

end Spec
open Spec

theorem outer_callerSees (e : Ev) : CallerSees e e.outer := by
  cases e with
  | connectReturned r => cases r <;> constructor
  | _ => exact .other _ (by intro r h; cases h)

theorem outer_forall (evs : List Ev) : List.Forall₂ CallerSees evs (evs.map Ev.outer) := by
  induction evs with
  | nil => exact .nil
  | cons e evs ih => exact .cons (outer_callerSees e) ih

theorem cexec_snoc {cfg : RCfg} {parse : Str → Except Nat Url} {entry : Entry} {text : Str} {a : CAct} :
    ∀ {acts : List CAct} {s0 st : CState} {tr : List CEv}, cexec cfg parse entry text s0 (acts ++ [a]) = some (st, tr) →
      ∃ s1 t1 t2, cexec cfg parse entry text s0 acts = some (s1, t1) ∧ cstep cfg parse entry text s1 a = some (st, t2) ∧
        tr = t1 ++ t2 := by
  intro acts
  induction acts with
  | nil =>
    intro s0 st tr h
    simp only [List.nil_append, cexec] at h
    split at h
    · cases h
    · rename_i s' evs hs
      simp only [List.append_nil, Option.some.injEq, Prod.mk.injEq] at h
      obtain ⟨rfl, rfl⟩ := h
      exact ⟨s0, [], evs, rfl, hs, rfl⟩
  | cons b acts ih =>
    intro s0 st tr h
    simp only [List.cons_append, cexec] at h
    split at h
    · cases h
    · rename_i s' evs hs
      split at h
      · cases h
      · rename_i s'' evs' hx
        simp only [Option.some.injEq, Prod.mk.injEq] at h
        obtain ⟨rfl, rfl⟩ := h
        obtain ⟨s1, t1, t2, h1, h2, rfl⟩ := ih hx
        exact ⟨s1, evs ++ t1, t2, by simp [cexec, hs, h1], h2, by simp⟩

/-- The first poll. -/
theorem poll_spec {parse : Str → Except Nat Url} {text : Str} (hp : ∀ u, parse text = .ok u → ParsedUrl u) :
    (∃ e, parse text = .error e) ∨
    (∃ u, parse text = .ok u ∧ (u.scheme ≠ "http".toList ∧ u.scheme ≠ "ws".toList ∧ u.scheme ≠ "https".toList ∧
      u.scheme ≠ "wss".toList) ∧ connectPlan u none = .err (.invalidScheme u.scheme)) ∨
    ∃ u p host port sec v, parse text = .ok u ∧ connectPlan u none = .ok p ∧ p = ⟨host, port, some sec, v⟩ ∧
      Target parse text host port sec v := by
  cases hu : parse text with
  | error e => exact .inl ⟨e, rfl⟩
  | ok u =>
    by_cases h1 : u.scheme = "http".toList ∨ u.scheme = "ws".toList
    · obtain ⟨h, v, hh, h2, h3⟩ := C39_insecure u (hp u hu) h1 none
      exact .inr (.inr ⟨u, _, h, _, false, v, rfl, h2, rfl, .plain u v h hu h1 hh h3 (C39_text u none _ h2)⟩)
    · by_cases h3 : u.scheme = "https".toList ∨ u.scheme = "wss".toList
      · obtain ⟨h, v, hh, h2, h4⟩ := C39_secure u (hp u hu) h3 none
        exact .inr (.inr ⟨u, _, h, _, true, v, rfl, h2, rfl, .secure u v h hu h3 hh h4 (C39_text u none _ h2)⟩)
      · simp only [not_or] at h1 h3
        have hs := And.intro h1.1 (And.intro h1.2 (And.intro h3.1 h3.2))
        exact .inr (.inl ⟨u, rfl, hs, C39_other u hs none⟩)

theorem came {cfg : RCfg} {parse : Str → Except Nat Url} {entry : Entry} {text : Str}
    (hp : ∀ u, parse text = .ok u → ParsedUrl u) (acts : List CAct) :
    ∀ {st : CState} {tr : List CEv}, CRuns cfg parse entry text acts st tr →
      Came cfg parse entry text acts st tr := by
  induction acts using List.reverseRecOn with
  | nil =>
    intro st tr h
    simp only [CRuns, cexec, Option.some.injEq, Prod.mk.injEq] at h
    obtain ⟨rfl, rfl⟩ := h
    exact .start
  | append_singleton acts a ih =>
    intro st tr h
    obtain ⟨s1, t1, t2, h1, h2, rfl⟩ := cexec_snoc h
    have hc := ih h1
    cases hc with
    | start =>
      cases a with
      | poll =>
        simp only [cstep] at h2
        rcases poll_spec hp with ⟨e, he⟩ | ⟨u, hu, hs, he⟩ | ⟨u, p, host, port, sec, v, hu, he, rfl, ht⟩
        · rw [he] at h2
          simp only [Option.some.injEq, Prod.mk.injEq] at h2
          obtain ⟨rfl, rfl⟩ := h2
          exact .badUrl _ (.parse e he)
        · simp only [hu, he, Option.some.injEq, Prod.mk.injEq] at h2
          obtain ⟨rfl, rfl⟩ := h2
          exact .badUrl _ (.scheme u hu hs)
        · simp only [hu, he] at h2
          cases entry with
          | connect =>
            simp only [Option.some.injEq, Prod.mk.injEq] at h2
            obtain ⟨rfl, rfl⟩ := h2
            exact .dialing _ _ _ _ ht rfl
          | fromStream =>
            simp only [Option.some.injEq, Prod.mk.injEq] at h2
            obtain ⟨rfl, rfl⟩ := h2
            exact .inside host port sec v ht [] Sys.init [] [] rfl .nil
      | drop =>
        simp only [cstep, Option.some.injEq, Prod.mk.injEq] at h2
        obtain ⟨rfl, rfl⟩ := h2
        exact .dropped
      | dialed r => simp [cstep] at h2
      | inner a => simp [cstep] at h2
    | dialing host port sec v ht he =>
      subst he
      cases a with
      | dialed r =>
        cases r with
        | ok x =>
          simp only [cstep, Option.some.injEq, Prod.mk.injEq] at h2
          obtain ⟨rfl, rfl⟩ := h2
          exact .inside host port sec v ht [] Sys.init [] [] rfl .nil
        | err e =>
          simp only [cstep, Option.some.injEq, Prod.mk.injEq] at h2
          obtain ⟨rfl, rfl⟩ := h2
          exact .refused _ _ _ _ e ht rfl
        | panic =>
          simp only [cstep, Option.some.injEq, Prod.mk.injEq] at h2
          obtain ⟨rfl, rfl⟩ := h2
          exact .panicked _ _ _ _ ht rfl
      | drop =>
        simp only [cstep, Option.some.injEq, Prod.mk.injEq] at h2
        obtain ⟨rfl, rfl⟩ := h2
        exact .givenUp _ _ _ _ ht rfl
      | poll => simp [cstep] at h2
      | inner a => simp [cstep] at h2
    | inside host port sec v ht acts s tr ctr hr hf =>
      cases a with
      | inner a =>
        simp only [cstep] at h2
        split at h2
        · cases h2
        · rename_i s' evs hs
          simp only [Option.some.injEq, Prod.mk.injEq] at h2
          obtain ⟨rfl, rfl⟩ := h2
          have := Came.inside (cfg := cfg) (entry := entry) host port sec v ht (acts ++ [a]) s' (tr ++ evs) (ctr ++ evs.map Ev.outer)
            (exec_snoc hr hs) (List.rel_append hf (outer_forall evs))
          simpa using this
      | _ => simp [cstep] at h2
    | _ => cases a <;> simp [cstep] at h2

theorem cexec_inner {cfg : RCfg} {parse : Str → Except Nat Url} {entry : Entry} {text : Str} :
    ∀ {acts : List Act} {s0 s : Sys} {tr : List Ev}, exec cfg s0 acts = some (s, tr) →
      cexec cfg parse entry text (.inside s0) (acts.map .inner) = some (.inside s, tr.map Ev.outer) := by
  intro acts
  induction acts with
  | nil =>
    intro s0 s tr h
    simp only [exec, Option.some.injEq, Prod.mk.injEq] at h
    obtain ⟨rfl, rfl⟩ := h
    rfl
  | cons a acts ih =>
    intro s0 s tr h
    simp only [exec] at h
    split at h
    · cases h
    · rename_i s' evs hs
      split at h
      · cases h
      · rename_i s'' evs' hx
        simp only [Option.some.injEq, Prod.mk.injEq] at h
        obtain ⟨rfl, rfl⟩ := h
        simp [cexec, cstep, hs, ih hx]

theorem port_unique {v w : Url} {scheme : Str} (h1 : v.scheme = scheme) (h2 : w.scheme = scheme) {d : Nat}
    (hd : defaultPort scheme = some d) (hv : v.port ≠ some d) (hw : w.port ≠ some d)
    (h : v.portOrDefault = w.portOrDefault) : v.port = w.port := by
  simp only [Url.portOrDefault, h1, h2, hd] at h
  cases hp : v.port <;> cases hq : w.port <;> simp_all

theorem handshakeUrl_unique {u v w : Url} {scheme : Str} (hs : scheme = "ws".toList ∨ scheme = "wss".toList)
    (hv : HandshakeUrl u scheme none v) (hw : HandshakeUrl u scheme none w) (hq : v.query = w.query) : v = w := by
  have hport : v.port = w.port := by
    refine port_unique hv.scheme hw.scheme (d := if scheme = "ws".toList then 80 else 443) ?_ hv.unwritten hw.unwritten
      (hv.port.trans hw.port.symm)
    rcases hs with rfl | rfl <;> decide +kernel
  have h1 := hv.scheme.trans hw.scheme.symm
  have h2 := hv.credentials.trans hw.credentials.symm
  have h3 := hv.host.trans hw.host.symm
  have h4 := hv.path.trans hw.path.symm
  have h5 := hv.fragment.trans hw.fragment.symm
  cases v
  cases w
  simp_all

theorem target_unique {parse : Str → Except Nat Url} {text : Str} {h h' : Str} {p p' : Nat} {b b' : Bool} {v v' : Url}
    (h1 : Target parse text h p b v) (h2 : Target parse text h' p' b' v') : h = h' ∧ p = p' ∧ b = b' ∧ v = v' := by
  have key : ∀ {s : Str}, s = "http".toList ∨ s = "ws".toList → ¬ (s = "https".toList ∨ s = "wss".toList) := by
    rintro s (rfl | rfl) <;> decide +kernel
  cases h1 with
  | plain u v h hu hs hh hv hq =>
    cases h2 with
    | plain u' v' h' hu' hs' hh' hv' hq' =>
      rw [hu] at hu'
      cases hu'
      rw [hh] at hh'
      cases hh'
      exact ⟨rfl, rfl, rfl, handshakeUrl_unique (.inl rfl) hv hv' (hq.trans hq'.symm)⟩
    | secure u' v' h' hu' hs' hh' hv' hq' =>
      rw [hu] at hu'
      cases hu'
      exact absurd hs' (key hs)
  | secure u v h hu hs hh hv hq =>
    cases h2 with
    | plain u' v' h' hu' hs' hh' hv' hq' =>
      rw [hu] at hu'
      cases hu'
      exact absurd hs (key hs')
    | secure u' v' h' hu' hs' hh' hv' hq' =>
      rw [hu] at hu'
      cases hu'
      rw [hh] at hh'
      cases hh'
      exact ⟨rfl, rfl, rfl, handshakeUrl_unique (.inr rfl) hv hv' (hq.trans hq'.symm)⟩

theorem target_plan {parse : Str → Except Nat Url} {text : Str} (hp : ∀ u, parse text = .ok u → ParsedUrl u) {h : Str} {p : Nat}
    {b : Bool} {v : Url} (ht : Target parse text h p b v) :
    ∃ u, parse text = .ok u ∧ connectPlan u none = .ok ⟨h, p, some b, v⟩ := by
  rcases poll_spec hp with ⟨e, he⟩ | ⟨u, hu, hs, he⟩ | ⟨u, _, host, port, sec, w, hu, he, rfl, ht'⟩
  · cases ht <;> simp_all
  · cases ht with
    | plain u' _ _ hu' hs' => rw [hu] at hu'; cases hu'; exact absurd hs' (by simp only [not_or]; exact ⟨hs.1, hs.2.1⟩)
    | secure u' _ _ hu' hs' => rw [hu] at hu'; cases hu'; exact absurd hs' (by simp only [not_or]; exact hs.2.2)
  · obtain ⟨rfl, rfl, rfl, rfl⟩ := target_unique ht ht'
    exact ⟨u, hu, he⟩

theorem callerSees_outer {e : Ev} {c : CEv} (h : CallerSees e c) : c = e.outer := by
  cases h with
  | other e h => cases e <;> first | rfl | exact absurd rfl (h _)
  | _ => rfl

theorem callerSees_map {tr : List Ev} {ctr : List CEv} (h : List.Forall₂ CallerSees tr ctr) : ctr = tr.map Ev.outer := by
  induction h with
  | nil => rfl
  | cons h _ ih => rw [callerSees_outer h, ih]; rfl

/-- C74: these, and no others, are the executions of `connect` and `from_stream`. -/
theorem C74_exact (cfg : RCfg) (parse : Str → Except Nat Url) (entry : Entry) (text : Str)
    (hp : ∀ u, parse text = .ok u → ParsedUrl u) (acts : List CAct) (st : CState) (tr : List CEv) :
    CRuns cfg parse entry text acts st tr ↔ Came cfg parse entry text acts st tr := by
  refine ⟨came hp acts, ?_⟩
  intro h
  cases h with
  | start => rfl
  | dropped => rfl
  | badUrl e h =>
    cases h with
    | parse e h => simp [CRuns, cexec, cstep, h]
    | scheme u h hs => simp [CRuns, cexec, cstep, h, C39_other u hs none]
  | dialing host port sec v h he =>
    obtain ⟨u, hu, h⟩ := target_plan hp h
    subst he
    simp [CRuns, cexec, cstep, hu, h]
  | givenUp host port sec v h he =>
    obtain ⟨u, hu, h⟩ := target_plan hp h
    subst he
    simp [CRuns, cexec, cstep, hu, h]
  | refused host port sec v e h he =>
    obtain ⟨u, hu, h⟩ := target_plan hp h
    subst he
    simp [CRuns, cexec, cstep, hu, h]
  | panicked host port sec v h he =>
    obtain ⟨u, hu, h⟩ := target_plan hp h
    subst he
    simp [CRuns, cexec, cstep, hu, h]
  | inside host port sec v h acts s tr ctr hr hf =>
    obtain ⟨u, hu, h⟩ := target_plan hp h
    have hx := cexec_inner (parse := parse) (entry := entry) (text := text) hr
    rw [callerSees_map hf]
    cases entry <;> simp [CRuns, entering, dials, cexec, cstep, hu, h, hx]

/-- C74: a text either has an error or one place to connect to. -/
theorem C74_target (parse : Str → Except Nat Url) (text : Str) (hp : ∀ u, parse text = .ok u → ParsedUrl u) :
    (∃ e, BadUrl parse text e ∧ (∀ e', BadUrl parse text e' → e' = e) ∧ ∀ h p b v, ¬ Target parse text h p b v) ∨
    ∃ h p b v, Target parse text h p b v ∧
      (∀ h' p' b' v', Target parse text h' p' b' v' → h' = h ∧ p' = p ∧ b' = b ∧ v' = v) ∧ ∀ e, ¬ BadUrl parse text e := by
  rcases poll_spec hp with ⟨e, he⟩ | ⟨u, hu, hs, he⟩ | ⟨u, _, host, port, sec, v, hu, he, rfl, ht⟩
  · refine .inl ⟨_, .parse e he, ?_, ?_⟩
    · rintro _ (⟨e', h⟩ | ⟨u, h, _⟩) <;> rw [he] at h <;> cases h
      rfl
    · rintro _ _ _ _ (⟨u, v, h, hu⟩ | ⟨u, v, h, hu⟩) <;> rw [he] at hu <;> cases hu
  · refine .inl ⟨_, .scheme u hu hs, ?_, ?_⟩
    · rintro _ (⟨e', h⟩ | ⟨u', h, _⟩) <;> rw [hu] at h <;> cases h
      rfl
    · intro h p b v ht
      obtain ⟨u', hu', h'⟩ := target_plan hp ht
      rw [hu] at hu'
      cases hu'
      rw [he] at h'
      cases h'
  · refine .inr ⟨_, _, _, _, ht, fun _ _ _ _ h => target_unique h ht, ?_⟩
    rintro _ (⟨e', h⟩ | ⟨u', h, hs⟩)
    · rw [hu] at h; cases h
    · rw [hu] at h
      cases h
      rw [C39_other _ hs none] at he
      cases he

theorem callerSees_split {tr : List Ev} {ctr : List CEv} (h : List.Forall₂ CallerSees tr ctr) :
    ∀ {t1 t2 : List CEv} {r : Res ConnectErr Str}, ctr = t1 ++ .returned r :: t2 →
      ∃ u1 e u2, tr = u1 ++ e :: u2 ∧ List.Forall₂ CallerSees u1 t1 ∧ CallerSees e (.returned r) ∧ List.Forall₂ CallerSees u2 t2 := by
  induction h with
  | nil => intro t1 t2 r h; simp at h
  | @cons e c tr ctr he hf ih =>
    intro t1 t2 r h
    cases t1 with
    | nil =>
      simp only [List.nil_append, List.cons.injEq] at h
      obtain ⟨rfl, rfl⟩ := h
      exact ⟨[], e, tr, rfl, .nil, he, hf⟩
    | cons x t1 =>
      simp only [List.cons_append, List.cons.injEq] at h
      obtain ⟨rfl, h⟩ := h
      obtain ⟨u1, e', u2, rfl, h1, h2, h3⟩ := ih h
      exact ⟨e :: u1, e', u2, rfl, .cons he h1, h2, h3⟩

theorem callerSees_noReturn {tr : List Ev} {ctr : List CEv} (h : List.Forall₂ CallerSees tr ctr) (hn : connectResults tr = []) :
    NoReturn ctr ∧ others ctr = tr := by
  induction h with
  | nil => exact ⟨by simp [NoReturn], rfl⟩
  | @cons e c tr ctr he hf ih =>
    cases he with
    | other _ hx =>
      have : connectResults tr = [] := by
        cases e <;> first | exact hn | exact absurd rfl (hx _)
      obtain ⟨h1, h2⟩ := ih this
      refine ⟨?_, by simpa [others] using h2⟩
      intro r hr
      simp only [List.mem_cons, reduceCtorEq, false_or] at hr
      exact h1 r hr
    | _ => simp [connectResults] at hn

theorem others_head {entry : Entry} {host : Str} {port : Nat} {sec : Option Bool} {v : Url} {tr : List CEv} :
    others (dials entry host port ++ .handshake sec v :: tr) = others tr := by
  cases entry <;> rfl

theorem noReturn_head {entry : Entry} {host : Str} {port : Nat} {sec : Option Bool} {v : Url} {tr : List CEv} (h : NoReturn tr) :
    NoReturn (dials entry host port ++ .handshake sec v :: tr) := by
  intro r hr
  cases entry <;> simp [dials] at hr <;> exact h r hr

theorem split_head {entry : Entry} {host : Str} {port : Nat} {sec : Option Bool} {v : Url} {tr t1 t2 : List CEv}
    {r : Res ConnectErr Str} (h : dials entry host port ++ .handshake sec v :: tr = t1 ++ .returned r :: t2) :
    ∃ t0, t1 = dials entry host port ++ .handshake sec v :: t0 ∧ tr = t0 ++ .returned r :: t2 := by
  cases entry with
  | connect =>
    match t1 with
    | [] => simp [dials] at h
    | [x] => simp [dials] at h
    | x :: y :: t0 =>
      simp only [dials, List.cons_append, List.nil_append, List.cons.injEq] at h
      obtain ⟨rfl, rfl, h⟩ := h
      exact ⟨t0, rfl, h⟩
  | fromStream =>
    match t1 with
    | [] => simp [dials] at h
    | x :: t0 =>
      simp only [dials, List.cons_append, List.nil_append, List.cons.injEq] at h
      obtain ⟨rfl, h⟩ := h
      exact ⟨t0, rfl, h⟩

/-- C74: the call returns at most once, and for a reason. -/
theorem C74_returns (cfg : RCfg) (parse : Str → Except Nat Url) (entry : Entry) (text : Str)
    (hp : ∀ u, parse text = .ok u → ParsedUrl u) (acts : List CAct) (st : CState) (tr : List CEv)
    (h : CRuns cfg parse entry text acts st tr) (t1 t2 : List CEv) (r : Res ConnectErr Str) (he : tr = t1 ++ .returned r :: t2) :
    NoReturn t1 ∧ NoReturn t2 ∧ ReturnAfter parse text acts t1 r := by
  have one : ∀ {x y : CEv}, [x] = t1 ++ y :: t2 → t1 = [] ∧ t2 = [] ∧ x = y := by
    intro x y h
    cases t1 <;> simp_all
  have two : ∀ {x y z : CEv}, x ≠ y → [x, z] = t1 ++ y :: t2 → t1 = [x] ∧ t2 = [] ∧ z = y := by
    intro x y z hn h
    match t1 with
    | [] => simp only [List.nil_append, List.cons.injEq] at h; exact absurd h.1 hn
    | [_] => simp_all
    | _ :: _ :: _ => simp at h
  cases came hp acts h with
  | start => simp at he
  | dropped => simp at he
  | badUrl e hb =>
    obtain ⟨rfl, rfl, hr⟩ := one he
    cases hr
    exact ⟨by simp [NoReturn], by simp [NoReturn], rfl, rfl, hb⟩
  | dialing => obtain ⟨_, _, hr⟩ := one he; cases hr
  | givenUp => obtain ⟨_, _, hr⟩ := one he; cases hr
  | refused host port sec v e ht hc =>
    obtain ⟨rfl, rfl, hr⟩ := two (by simp) he
    cases hr
    exact ⟨by simp [NoReturn], by simp [NoReturn], rfl, host, port, rfl⟩
  | panicked host port sec v ht hc =>
    obtain ⟨rfl, rfl, hr⟩ := two (by simp) he
    cases hr
    exact ⟨by simp [NoReturn], by simp [NoReturn], .inl ⟨rfl, host, port, rfl⟩⟩
  | inside host port sec v ht acts s tr ctr hr hf =>
    obtain ⟨t0, rfl, hc⟩ := split_head he
    obtain ⟨u1, e, u2, rfl, h1, h2, h3⟩ := callerSees_split hf hc
    cases h2 with
    | ok sid =>
      obtain ⟨k1, k2, k3⟩ := C37_partial cfg acts s _ hr u1 u2 _ rfl
      obtain ⟨n1, o1⟩ := callerSees_noReturn h1 k1
      exact ⟨noReturn_head n1, (callerSees_noReturn h3 k2).1, by rw [ReturnAfter, others_head, o1]; exact k3⟩
    | err e =>
      obtain ⟨k1, k2, k3⟩ := C37_partial cfg acts s _ hr u1 u2 _ rfl
      exact ⟨noReturn_head (callerSees_noReturn h1 k1).1, (callerSees_noReturn h3 k2).1, k3⟩
    | panic =>
      obtain ⟨k1, k2, k3⟩ := C37_partial cfg acts s _ hr u1 u2 _ rfl
      obtain ⟨n1, o1⟩ := callerSees_noReturn h1 k1
      exact ⟨noReturn_head n1, (callerSees_noReturn h3 k2).1, .inr (by rw [others_head, o1]; exact k3)⟩

/-- An example of a parser. -/
def exParse (t : Str) : Except Nat Url :=
  if t = "https://h:8080/x?a".toList then .ok ⟨"https".toList, [], some ['h'], some 8080, "/x".toList, some ['a'], none⟩
  else if t = "ftp://h".toList then .ok ⟨"ftp".toList, [], some ['h'], none, ['/'], none, none⟩
  else .error 7

-- non-vacuity: the parser of the example is a parser
example (text : Str) (u : Url) (h : exParse text = .ok u) : ParsedUrl u := by
  unfold exParse at h
  split at h
  · cases h
    exact ⟨fun _ => by simp⟩
  · split at h
    · cases h
      exact ⟨fun _ => by simp⟩
    · cases h

-- an unparsable text, a wrong scheme, and a connection, of which the application is asked for the stream
example : CRuns exCfg exParse .connect "x".toList [.poll] .over [.returned (.err (.url "x".toList (.parse 7)))] := rfl
example : CRuns exCfg exParse .fromStream "ftp://h".toList [.poll] .over
    [.returned (.err (.url "ftp://h".toList (.bad (.invalidScheme "ftp".toList))))] :=
  (C74_exact _ _ _ _ (by intro u h; cases h; exact ⟨fun _ => by simp⟩) _ _ _).2
    (.badUrl _ (.scheme ⟨"ftp".toList, [], some ['h'], none, ['/'], none, none⟩ rfl (by decide +kernel)))
example : Target exParse "https://h:8080/x?a".toList ['h'] 8080 true
    ⟨"wss".toList, [], some ['h'], some 8080, "/x".toList, some "a&EIO=4&transport=websocket".toList, none⟩ :=
  .secure ⟨"https".toList, [], some ['h'], some 8080, "/x".toList, some ['a'], none⟩ _ _ rfl (.inl rfl) rfl
    ⟨by decide +kernel, rfl, rfl, rfl, by decide +kernel, rfl, rfl, _, rfl, by decide +kernel, by decide +kernel⟩ (by decide +kernel)
example : (match cexec exCfg exParse .connect "https://h:8080/x?a".toList .unpolled
      ([.poll, .dialed (.ok ())] ++ exConnect.map .inner) with
    | some (.inside _, .dial h p :: .handshake b u :: tr) => decide (h = ['h'] ∧ p = 8080 ∧ b = some true ∧
        u.query = some "a&EIO=4&transport=websocket".toList) &&
        tr.any (fun | .returned (.ok sid) => decide (sid = ['s']) | _ => false)
    | _ => false) = true := by decide +kernel
example : (cexec exCfg exParse .fromStream "https://h:8080/x?a".toList .unpolled [.poll, .dialed (.ok ())]).isNone = true := by
  decide +kernel

end SIO
