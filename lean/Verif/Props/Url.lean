import Verif.Url
/-
C39: from the url to the connection.
-/
namespace SIO
namespace Spec

/-- What `Url::parse` guarantees: urls with a web scheme have a host. -/
structure ParsedUrl (u : Url) : Prop where
  host : u.scheme = "http".toList ∨ u.scheme = "ws".toList ∨ u.scheme = "https".toList ∨ u.scheme = "wss".toList →
    u.host ≠ none

/-- The text at the separators. -/
def splitAt' (sep : Char) : List Char → List (List Char)
  | [] => [[]]
  | c :: s =>
    if c = sep then [] :: splitAt' sep s
    else
      match splitAt' sep s with
      | [] => [[c]]
      | x :: xs => (c :: x) :: xs

/-- Decoding of `application/x-www-form-urlencoded`, to bytes. -/
def formDecode : List Char → List UInt8
  | [] => []
  | '%' :: h :: l :: r =>
    match hexValue h, hexValue l with
    | some a, some b => (16 * a + b) :: formDecode r
    | _, _ => 37 :: formDecode (h :: l :: r)
  | '+' :: r => 32 :: formDecode r
  | c :: r => String.utf8EncodeChar c ++ formDecode r
where
  hexValue (c : Char) : Option UInt8 :=
    let n := c.toNat
    if 48 ≤ n ∧ n ≤ 57 then some (n - 48).toUInt8
    else if 65 ≤ n ∧ n ≤ 70 then some (n - 55).toUInt8
    else if 97 ≤ n ∧ n ≤ 102 then some (n - 87).toUInt8
    else none

/-- One `name=value` piece of a query. -/
def queryPair (s : List Char) : List UInt8 × List UInt8 :=
  (formDecode (s.takeWhile (· ≠ '=')), formDecode ((s.dropWhile (· ≠ '=')).drop 1))

/-- The pairs of a query, as bytes. -/
def queryPairs (q : List Char) : List (List UInt8 × List UInt8) :=
  ((splitAt' '&' q).filter (· ≠ [])).map queryPair

/-- UTF-8. -/
def utf8 (s : List Char) : List UInt8 := s.flatMap String.utf8EncodeChar

end Spec
open Spec

/-! ### The query -/

theorem splitAt_ne (sep : Char) : ∀ s, splitAt' sep s ≠ [] := by
  intro s
  induction s with
  | nil => simp [splitAt']
  | cons c s ih =>
    simp only [splitAt']
    split
    · simp
    · split <;> simp

theorem splitAt_sep (sep : Char) (a b : List Char) : splitAt' sep (a ++ sep :: b) = splitAt' sep a ++ splitAt' sep b := by
  induction a with
  | nil => simp [splitAt']
  | cons c a ih =>
    simp only [List.cons_append, splitAt', ih]
    split
    · simp
    · cases h : splitAt' sep a with
      | nil => exact absurd h (splitAt_ne sep a)
      | cons x xs => simp

theorem splitAt_none {sep : Char} {a : List Char} (h : sep ∉ a) : splitAt' sep a = [a] := by
  induction a with
  | nil => rfl
  | cons c a ih =>
    simp only [List.mem_cons, not_or] at h
    simp [splitAt', Ne.symm h.1, ih h.2]

/-- How a byte is written in a query: without separators, and readable. -/
def formByteOk (b : UInt8) : Bool :=
  decide ('&' ∉ formByte b) && decide ('=' ∉ formByte b) &&
  match formByte b with
  | ['%', h, l] =>
    match formDecode.hexValue h, formDecode.hexValue l with
    | some x, some y => decide (16 * x + y = b)
    | _, _ => false
  | ['+'] => decide (b = 32)
  | [c] => decide (c ≠ '%' ∧ c ≠ '+' ∧ String.utf8EncodeChar c = [b])
  | _ => false

theorem formByteOk_all (b : UInt8) : formByteOk b = true := by
  have h : ∀ n : Fin 256, formByteOk (UInt8.ofNat n.val) = true := by decide +kernel
  have := h ⟨b.toNat, b.toNat_lt⟩
  simpa using this

theorem formDecode_byte (b : UInt8) (r : List Char) : formDecode (formByte b ++ r) = b :: formDecode r := by
  have h := formByteOk_all b
  simp only [formByteOk, Bool.and_eq_true, decide_eq_true_eq] at h
  obtain ⟨_, h⟩ := h
  split at h
  · rename_i x y he
    rw [he]
    split at h
    · rename_i a b' h1 h2
      simp only [List.cons_append, List.nil_append, formDecode, h1, h2]
      simp only [decide_eq_true_eq] at h
      rw [h]
    · simp at h
  · rename_i he
    rw [he]
    simp only [decide_eq_true_eq] at h
    simp [formDecode, h]
  · rename_i c h1 h2 he
    rw [he]
    simp only [decide_eq_true_eq] at h
    obtain ⟨h3, h4, h5⟩ := h
    rw [List.cons_append, List.nil_append, formDecode, h5]
    · rfl
    · intro a b r hx; exact absurd hx h3
    · intro hx; exact absurd hx h4
  · simp at h

theorem formDecode_bytes (bs : List UInt8) : formDecode (bs.flatMap formByte) = bs := by
  induction bs with
  | nil => rfl
  | cons b bs ih => rw [List.flatMap_cons, formDecode_byte, ih]

theorem formEncode_clean (s : Str) : '&' ∉ formEncode s ∧ '=' ∉ formEncode s := by
  have h : ∀ b, '&' ∉ formByte b ∧ '=' ∉ formByte b := by
    intro b
    have h := formByteOk_all b
    simp only [formByteOk, Bool.and_eq_true, decide_eq_true_eq] at h
    exact h.1
  simp only [formEncode, List.mem_flatMap, not_exists, not_and]
  exact ⟨fun b _ => (h b).1, fun b _ => (h b).2⟩

theorem queryPair_eq (n v : Str) : queryPair (formEncode n ++ '=' :: formEncode v) = (utf8 n, utf8 v) := by
  have hn : ∀ c ∈ formEncode n, decide (c ≠ '=') = true := by
    intro c hc
    simp only [decide_eq_true_eq]
    rintro rfl
    exact (formEncode_clean n).2 hc
  have h1 : (formEncode n ++ '=' :: formEncode v).takeWhile (· ≠ '=') = formEncode n := by
    rw [List.takeWhile_append_of_pos hn]
    simp
  have h2 : (formEncode n ++ '=' :: formEncode v).dropWhile (· ≠ '=') = '=' :: formEncode v := by
    rw [List.dropWhile_append_of_pos hn]
    simp
  simp only [queryPair, h1, h2, List.drop_succ_cons, List.drop_zero]
  rw [formEncode, formEncode, formDecode_bytes, formDecode_bytes]
  rfl

/-- A pair is added after those that are there. -/
theorem queryPairs_append (q n v : Str) : queryPairs (appendPair q n v) = queryPairs q ++ [(utf8 n, utf8 v)] := by
  have h1 : '&' ∉ formEncode n ++ '=' :: formEncode v := by
    simp [formEncode_clean]
  have h2 : splitAt' '&' (formEncode n ++ '=' :: formEncode v) = [formEncode n ++ '=' :: formEncode v] := splitAt_none h1
  have h3 : formEncode n ++ '=' :: formEncode v ≠ [] := by simp
  have h4 := queryPair_eq n v
  unfold appendPair
  split
  · rename_i hq
    subst hq
    simp [queryPairs, h2, h3, h4, splitAt']
  · rw [List.append_assoc, List.append_assoc, List.singleton_append]
    simp [queryPairs, splitAt_sep, h2, h3, h4]

/-- The text of the existing query is kept. -/
theorem appendPair_prefix (q n v : Str) : q <+: appendPair q n v := by
  unfold appendPair
  split
  · simp_all
  · simp [List.append_assoc]

/-! ### C39 -/

/-- The pairs of the handshake query after those of the given url. -/
def addedPairs (sid : Option Str) : List (List UInt8 × List UInt8) :=
  [(utf8 "EIO".toList, utf8 "4".toList), (utf8 "transport".toList, utf8 "websocket".toList)] ++
    (sid.map fun s => (utf8 "sid".toList, utf8 s)).toList

/-- The url of the handshake: same credentials, host, effective port, path and fragment, the scheme
is that of a websocket, the query is extended. -/
structure HandshakeUrl (u : Url) (scheme : Str) (sid : Option Str) (v : Url) : Prop where
  /-- a default port is not written -/
  unwritten : v.port ≠ some (if scheme = "ws".toList then 80 else 443)
  scheme : v.scheme = scheme
  credentials : v.credentials = u.credentials
  host : v.host = u.host
  port : v.portOrDefault = u.portOrDefault
  path : v.path = u.path
  fragment : v.fragment = u.fragment
  kept : ∃ q, v.query = some q ∧ u.query.getD [] <+: q ∧ queryPairs q = queryPairs (u.query.getD []) ++ addedPairs sid

theorem mapQuery_added {u : Url} {sid : Option Str} :
    ∃ q, (addSid (addQueryParams u) sid).query = some q ∧ u.query.getD [] <+: q ∧
      queryPairs q = queryPairs (u.query.getD []) ++ addedPairs sid := by
  cases sid with
  | none =>
    refine ⟨_, rfl, (appendPair_prefix _ _ _).trans (appendPair_prefix _ _ _), ?_⟩
    simp [queryPairs_append, addedPairs]
  | some s =>
    refine ⟨_, rfl, ((appendPair_prefix _ _ _).trans (appendPair_prefix _ _ _)).trans (appendPair_prefix _ _ _), ?_⟩
    simp [addQueryParams, Url.mapQuery, queryPairs_append, addedPairs]

theorem addSid_same (u : Url) (sid : Option Str) :
    (addSid (addQueryParams u) sid).scheme = u.scheme ∧ (addSid (addQueryParams u) sid).credentials = u.credentials ∧
    (addSid (addQueryParams u) sid).host = u.host ∧ (addSid (addQueryParams u) sid).port = u.port ∧
    (addSid (addQueryParams u) sid).path = u.path ∧ (addSid (addQueryParams u) sid).fragment = u.fragment := by
  cases sid <;> simp [addSid, addQueryParams, Url.mapQuery]

theorem plan_of {u u' : Url} {sid : Option Str} {h : Str} {p : Nat} (hp : parseUrl u = .ok u') (hh : u'.host = some h)
    (hport : u'.portOrDefault = some p) :
    connectPlan u sid = .ok ⟨h, p, secureMode u', addSid (addQueryParams u') sid⟩ := by
  have hs : secureMode (addSid (addQueryParams u') sid) = secureMode u' := by
    simp only [secureMode, (addSid_same u' sid).1]
  simp only [connectPlan, hp, hh, hport, hs]

/-- The url after `set_scheme` to a scheme with the same default port. -/
theorem setScheme_ok {u : Url} {h : Str} {p : Nat} (scheme : Str) (hh : u.host = some h) (h1 : defaultPort u.scheme = some p)
    (h2 : defaultPort scheme = some p) :
    ∃ v, u.setScheme scheme = some v ∧ v.scheme = scheme ∧ v.credentials = u.credentials ∧ v.host = some h ∧
      v.portOrDefault = some (u.port.getD p) ∧ v.path = u.path ∧ v.fragment = u.fragment ∧ v.query = u.query ∧
      v.port ≠ some p := by
  have hs : isSpecial scheme = isSpecial u.scheme := by simp [isSpecial, h1, h2]
  refine ⟨{ u with scheme := scheme }.setPort u.port, by rw [Url.setScheme, if_neg (by simp [hs, hh])], rfl, rfl, hh, ?_, rfl, rfl, rfl, ?_⟩
  · simp only [Url.setPort, Url.portOrDefault, h2]
    cases hp : u.port with
    | none => simp
    | some q =>
      by_cases hq : q = p
      · subst hq; simp
      · simp [hq]
  · simp only [Url.setPort, h2]
    split
    · simp
    · assumption

theorem plan_ok (u : Url) (sid : Option Str) (scheme : Str) (h : Str) (p : Nat) (hh : u.host = some h)
    (h1 : defaultPort u.scheme = some p) (h2 : defaultPort scheme = some p) (sec : Bool)
    (hsec : ∀ v : Url, v.scheme = scheme → secureMode v = some sec) (hd : p = if scheme = "ws".toList then 80 else 443)
    (hp : parseUrl u = match u.setScheme scheme with
      | none => .panic
      | some u => match u.host with
        | none => .err .noHost
        | some _ => .ok u) :
    ∃ v, connectPlan u sid = .ok ⟨h, u.port.getD p, some sec, v⟩ ∧ HandshakeUrl u scheme sid v := by
  obtain ⟨v, k1, k2, k3, k4, k5, k6, k7, k8, k9⟩ := setScheme_ok scheme hh h1 h2
  have hp' : parseUrl u = .ok v := by rw [hp, k1]; simp [k4]
  refine ⟨addSid (addQueryParams v) sid, ?_, ?_⟩
  · rw [plan_of hp' k4 k5, hsec v k2]
  · obtain ⟨a1, a2, a3, a4, a5, a6⟩ := addSid_same v sid
    obtain ⟨q, b1, b2, b3⟩ := mapQuery_added (u := v) (sid := sid)
    constructor
    · rw [a4, ← hd]
      exact k9
    · rw [a1, k2]
    · rw [a2, k3]
    · rw [a3, k4, hh]
    · have : (addSid (addQueryParams v) sid).portOrDefault = v.portOrDefault := by
        simp only [Url.portOrDefault, a1, a4]
      rw [this, k5, Url.portOrDefault, h1]
      cases u.port <;> rfl
    · rw [a5, k6]
    · rw [a6, k7]
    · rw [k8] at b2 b3
      exact ⟨q, b1, b2, b3⟩

/-- C39: `http` and `ws` urls are connected without encryption, on the given port or 80. -/
theorem C39_insecure (u : Url) (hu : ParsedUrl u) (hs : u.scheme = "http".toList ∨ u.scheme = "ws".toList) (sid : Option Str) :
    ∃ h v, u.host = some h ∧ connectPlan u sid = .ok ⟨h, u.port.getD 80, some false, v⟩ ∧
      HandshakeUrl u "ws".toList sid v := by
  obtain ⟨h, hh⟩ := Option.ne_none_iff_exists'.1 (hu.host (by rcases hs with hs | hs <;> simp [hs]))
  obtain ⟨v, h1, h2⟩ := plan_ok u sid "ws".toList h 80 hh (by rw [defaultPort, if_pos hs]) (by decide +kernel) false
    (by intro v hv; simp [secureMode, hv]) (by decide +kernel) (by rw [parseUrl, if_pos hs]; rfl)
  exact ⟨h, v, hh, h1, h2⟩

/-- C39: `https` and `wss` urls are connected with encryption, on the given port or 443. -/
theorem C39_secure (u : Url) (hu : ParsedUrl u) (hs : u.scheme = "https".toList ∨ u.scheme = "wss".toList) (sid : Option Str) :
    ∃ h v, u.host = some h ∧ connectPlan u sid = .ok ⟨h, u.port.getD 443, some true, v⟩ ∧
      HandshakeUrl u "wss".toList sid v := by
  obtain ⟨h, hh⟩ := Option.ne_none_iff_exists'.1 (hu.host (by rcases hs with hs | hs <;> simp [hs]))
  have hn : ¬ (u.scheme = "http".toList ∨ u.scheme = "ws".toList) := by
    rcases hs with hs | hs <;> rw [hs] <;> decide +kernel
  obtain ⟨v, h1, h2⟩ := plan_ok u sid "wss".toList h 443 hh (by rw [defaultPort, if_neg hn, if_pos hs]) (by decide +kernel) true
    (by intro v hv; rw [secureMode, hv]; decide +kernel) (by decide +kernel) (by rw [parseUrl, if_neg hn, if_pos hs]; rfl)
  exact ⟨h, v, hh, h1, h2⟩

/-- C39: every other scheme is rejected, with its name. -/
theorem C39_other (u : Url) (hs : u.scheme ≠ "http".toList ∧ u.scheme ≠ "ws".toList ∧ u.scheme ≠ "https".toList ∧
    u.scheme ≠ "wss".toList) (sid : Option Str) : connectPlan u sid = .err (.invalidScheme u.scheme) := by
  have : parseUrl u = .err (.invalidScheme u.scheme) := by
    rw [parseUrl, if_neg (by simp only [not_or]; exact ⟨hs.1, hs.2.1⟩), if_neg (by simp only [not_or]; exact ⟨hs.2.2.1, hs.2.2.2⟩)]
  simp only [connectPlan, this]

/-- C39: hence no url makes `connect` panic before the connection is made. -/
theorem C39_no_panic (u : Url) (hu : ParsedUrl u) (sid : Option Str) : connectPlan u sid ≠ .panic := by
  by_cases h1 : u.scheme = "http".toList ∨ u.scheme = "ws".toList
  · obtain ⟨h, v, _, h2, _⟩ := C39_insecure u hu h1 sid
    simp [h2]
  · by_cases h3 : u.scheme = "https".toList ∨ u.scheme = "wss".toList
    · obtain ⟨h, v, _, h2, _⟩ := C39_secure u hu h3 sid
      simp [h2]
    · simp only [not_or] at h1 h3
      simp [C39_other u ⟨h1.1, h1.2, h3.1, h3.2⟩ sid]

/-- C39: the error about a missing host is never given; an `http`, `ws`, `https` or `wss` url without one, if the parser gave
such a thing, would make `set_scheme(…).unwrap()` panic before it is looked at. -/
theorem C39_host (u : Url) (sid : Option Str) : connectPlan u sid ≠ .err .noHost ∧ (u.host = none →
    u.scheme ∈ ["http".toList, "ws".toList, "https".toList, "wss".toList] → connectPlan u sid = .panic) := by
  have set : ∀ scheme, isSpecial scheme = true → u.host = none → u.setScheme scheme = none := by
    intro scheme hs hh
    rw [Url.setScheme, if_pos (Or.inr ⟨hh, hs⟩)]
  have host : ∀ scheme v, u.setScheme scheme = some v → v.host = u.host := by
    intro scheme v h
    rw [Url.setScheme] at h
    split at h
    · cases h
    · cases h; rfl
  have key : ∀ scheme, isSpecial scheme = true → (u.host = none → (match u.setScheme scheme with
      | none => .panic
      | some u => match u.host with
        | none => .err .noHost
        | some _ => .ok u : Res UrlErr Url) = .panic) ∧ (match u.setScheme scheme with
      | none => .panic
      | some u => match u.host with
        | none => .err .noHost
        | some _ => .ok u : Res UrlErr Url) ≠ .err .noHost := by
    intro scheme hs
    cases hh : u.host with
    | none => rw [set scheme hs hh]; exact ⟨fun _ => rfl, by simp⟩
    | some h =>
      refine ⟨by simp, ?_⟩
      cases hv : u.setScheme scheme with
      | none => simp
      | some v => rw [← host _ _ hv] at hh; simp [hh]
  have parsed : parseUrl u ≠ .err .noHost ∧ (u.host = none →
      u.scheme ∈ ["http".toList, "ws".toList, "https".toList, "wss".toList] → parseUrl u = .panic) := by
    by_cases h1 : u.scheme = "http".toList ∨ u.scheme = "ws".toList
    · have := key "ws".toList (by decide +kernel)
      rw [parseUrl, if_pos h1]
      exact ⟨this.2, fun h _ => this.1 h⟩
    · by_cases h3 : u.scheme = "https".toList ∨ u.scheme = "wss".toList
      · have := key "wss".toList (by decide +kernel)
        rw [parseUrl, if_neg h1, if_pos h3]
        exact ⟨this.2, fun h _ => this.1 h⟩
      · rw [parseUrl, if_neg h1, if_neg h3]
        refine ⟨by simp, fun _ hm => ?_⟩
        simp only [not_or] at h1 h3
        simp only [List.mem_cons, List.not_mem_nil, or_false, h1.1, h1.2, h3.1, h3.2] at hm
  constructor
  · simp only [connectPlan]
    split
    · rename_i e he
      intro h
      rw [Res.err.injEq] at h
      exact parsed.1 (h ▸ he)
    · simp
    · split <;> simp
  · intro h1 h2
    simp only [connectPlan, parsed.2 h1 h2]

example : connectPlan ⟨"http".toList, [], none, none, [], none, none⟩ none = .panic := by decide +kernel

/-! ### The text of the query -/

namespace Spec

/-- A byte in a query: letters, digits and `*-._` as they are, a space as `+`, everything else as a
percent sign and two upper case hexadecimal digits. -/
def byteText (b : UInt8) : List Char :=
  if Char.ofNat b.toNat ∈ "*-._0123456789ABCDEFGHIJKLMNOPQRSTUVWXYZabcdefghijklmnopqrstuvwxyz".toList then [Char.ofNat b.toNat]
  else if b.toNat = 0x20 then ['+']
  else '%' :: ([b.toNat / 16, b.toNat % 16].flatMap fun d => ("0123456789ABCDEF".toList[d]?).toList)

/-- The pieces of the handshake query, between `&`. -/
def pieces (old : List Char) (sid : Option (List Char)) : List (List Char) :=
  (if old = [] then [] else [old]) ++ ["EIO=4".toList, "transport=websocket".toList] ++
    (sid.map fun s => "sid=".toList ++ (utf8 s).flatMap byteText).toList

end Spec

theorem formByte_text (b : UInt8) : formByte b = byteText b := by
  have h : ∀ n : Fin 256, formByte (UInt8.ofNat n.val) = byteText (UInt8.ofNat n.val) := by decide +kernel
  have := h ⟨b.toNat, b.toNat_lt⟩
  simpa using this

theorem formEncode_text (s : Str) : formEncode s = (utf8 s).flatMap byteText := by
  unfold formEncode utf8
  congr 1
  funext b
  exact formByte_text b

theorem query_text (u : Url) (sid : Option Str) :
    (addSid (addQueryParams u) sid).query = some (['&'].intercalate (pieces (u.query.getD []) sid)) := by
  have e1 : formEncode "EIO".toList = "EIO".toList := by decide +kernel
  have e2 : formEncode "4".toList = "4".toList := by decide +kernel
  have e3 : formEncode "transport".toList = "transport".toList := by decide +kernel
  have e4 : formEncode "websocket".toList = "websocket".toList := by decide +kernel
  have e5 : formEncode "sid".toList = "sid".toList := by decide +kernel
  have c1 : "EIO".toList ++ '=' :: "4".toList = "EIO=4".toList := by decide +kernel
  have c2 : "transport".toList ++ '=' :: "websocket".toList = "transport=websocket".toList := by decide +kernel
  have c3 : "sid".toList ++ ['='] = "sid=".toList := by decide +kernel
  have key : ∀ q : Str, appendPair (appendPair q "EIO".toList "4".toList) "transport".toList "websocket".toList =
      (if q = [] then [] else q ++ ['&']) ++ ("EIO=4".toList ++ '&' :: "transport=websocket".toList) := by
    intro q
    have h1 : appendPair q "EIO".toList "4".toList = (if q = [] then [] else q ++ ['&']) ++ "EIO=4".toList := by
      rw [appendPair, e1, e2, List.append_assoc, c1]
    have h2 : (if q = [] then [] else q ++ ['&']) ++ "EIO=4".toList ≠ [] := by simp
    rw [h1, appendPair, if_neg h2, e3, e4]
    simp only [List.append_assoc, c2]
    simp
  have n2 : ∀ q : Str, (if q = [] then [] else q ++ ['&']) ++ ("EIO=4".toList ++ '&' :: "transport=websocket".toList) ≠ [] := by
    simp
  cases sid with
  | none =>
    show some (appendPair _ _ _) = some _
    rw [key]
    generalize u.query.getD [] = q
    by_cases hq : q = [] <;> simp [hq, pieces, List.intercalate, List.intersperse]
  | some s =>
    show some (appendPair _ _ _) = some _
    rw [show ((addQueryParams u).query.getD []) = _ from key (u.query.getD []), appendPair, if_neg (n2 _), e5,
      formEncode_text]
    generalize u.query.getD [] = q
    rw [show ∀ x : Str, '=' :: x = ['='] ++ x from fun _ => rfl, List.append_assoc, ← List.append_assoc "sid".toList, c3]
    by_cases hq : q = [] <;> simp [hq, pieces, List.intercalate, List.intersperse]

/-- C39: the exact text of the query: the old one, then the parameters of the protocol, then the
session if there is one. -/
theorem C39_text (u : Url) (sid : Option Str) (plan : Plan) (h : connectPlan u sid = .ok plan) :
    plan.url.query = some (['&'].intercalate (pieces (u.query.getD []) sid)) := by
  unfold connectPlan at h
  split at h
  · simp at h
  · simp at h
  · rename_i v hv
    have hq : v.query = u.query := by
      have key : ∀ (scheme : Str) (w : Url), u.setScheme scheme = some w → w.query = u.query := by
        intro scheme w hw
        unfold Url.setScheme at hw
        split at hw
        · simp at hw
        · simp only [Option.some.injEq] at hw
          subst hw
          rfl
      unfold parseUrl at hv
      simp only at hv
      repeat' split at hv
      all_goals first | (simp at hv; done) | skip
      all_goals
        simp only [Res.ok.injEq] at hv
        subst hv
        exact key _ _ ‹_›
    split at h
    · simp only [Res.ok.injEq] at h
      subst h
      rw [← hq]
      exact query_text v sid
    · simp at h

-- non-vacuity: the texts of the query
example : (connectPlan ⟨"https".toList, [], some "a.b".toList, some 80, "/socket.io/".toList, some "x=1&y".toList, none⟩ none) =
    .ok ⟨"a.b".toList, 80, some true, ⟨"wss".toList, [], some "a.b".toList, some 80, "/socket.io/".toList,
      some "x=1&y&EIO=4&transport=websocket".toList, none⟩⟩ := by
  decide +kernel
example : (connectPlan ⟨"http".toList, [], some "a.b".toList, none, "/".toList, none, some "f".toList⟩ (some "a b&é".toList)) =
    .ok ⟨"a.b".toList, 80, some false, ⟨"ws".toList, [], some "a.b".toList, none, "/".toList,
      some "EIO=4&transport=websocket&sid=a+b%26%C3%A9".toList, some "f".toList⟩⟩ := by
  decide +kernel
example : (connectPlan ⟨"ftp".toList, [], some "a.b".toList, none, "/".toList, none, none⟩ none) =
    .err (.invalidScheme "ftp".toList) := by
  decide +kernel

end SIO
