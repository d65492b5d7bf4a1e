import Verif.Proofs.Address

/-!
# C101: the address of the server

`Place` is where a server is and `Place.address` what a user writes for it; `ProducerReaches` and `ConsumerReaches` say that a client
with this address talks to the server at that place (`Spec/Address.lean`).
-/

namespace Opsqueue.Address
open Http (Seg Call HttpRequest ServerEnv request handle)

/-- **C101 in full**: an address with the scheme `http` or `https`, or without one, with or without a slash at the end, leads both
clients to the server at that place, and the connection is encrypted if the scheme is `https`. -/
def C101_full : Prop :=
  ∀ p : Place, p.Plain → ∀ scheme ∈ [none, some "http", some "https"], ∀ slash c, PlainCall c →
    ProducerReaches p (if scheme = some "https" then "https" else "http") c (p.address scheme slash) ∧
    ConsumerReaches p (if scheme = some "https" then "wss" else "ws") (p.address scheme slash)

private theorem address_eq (p : Place) (scheme : Option String) (t : List Char) :
    p.address scheme ++ '/' :: t =
      (match scheme with | none => [] | some s => s.toList ++ "://".toList) ++ (p.authority ++ '/' :: under p.dir t) := by
  simp only [Place.address, List.append_nil, List.append_assoc, if_neg Bool.false_ne_true]
  rw [under_eq]
  cases scheme <;> rfl

private theorem address_none_split {p : Place} (hp : p.Plain) (slash : Bool) : splitOnce (p.address none slash) = none := by
  apply splitOnce_none
  simp only [Place.address, List.nil_append, List.append_assoc]
  refine noDouble_append _ hp.1.noSlash (noDouble_dir (fun s hs => (hp.2 s hs).1) _ ?_)
  cases slash <;> decide

private theorem address_some_split (p : Place) (s : String) (slash : Bool) (hs : ':' ∉ s.toList) :
    ∃ r, splitOnce (p.address (some s) slash) = some (s.toList, r) :=
  ⟨p.authority ++ (p.dir.flatMap ('/' :: ·) ++ (if slash then ['/'] else [])), by
    simp only [Place.address, List.append_assoc]
    have := splitOnce_scheme s.toList (p.authority ++ (p.dir.flatMap ('/' :: ·) ++ (if slash then ['/'] else []))) hs
    rwa [List.append_assoc] at this⟩

/-- **C101**, producers: with `http`, with `https` or without a scheme, if there is no slash at the end. -/
theorem C101_producer_partial (p : Place) (hp : p.Plain) (c : Call) (hc : PlainCall c) :
    ProducerReaches p "http" c (p.address none) ∧
    ∀ s ∈ ["http", "https"], ProducerReaches p s c (p.address (some s)) := by
  constructor
  · unfold ProducerReaches producerTarget producerUrl
    rw [address_none_split hp]
    simp only [Option.bind_some]
    rw [List.append_assoc, address_eq]
    simp only [List.nil_append]
    have h := readUrl_eq (s := "http".toList) (t := under p.dir (Http.pathText c)) (by decide) hp.1
    rw [urlPath_under hp.2 hc] at h
    exact h
  · intro s hs
    have hcol : ':' ∉ s.toList := by
      rcases List.mem_cons.1 hs with rfl | hs
      · decide
      · rw [List.mem_singleton.1 hs]; decide
    obtain ⟨r, hr⟩ := address_some_split p s false hcol
    have hok : s.toList = "http".toList ∨ s.toList = "https".toList := by
      rcases List.mem_cons.1 hs with rfl | hs
      · exact .inl rfl
      · rw [List.mem_singleton.1 hs]; exact .inr rfl
    unfold ProducerReaches producerTarget producerUrl
    rw [hr]
    simp only [if_pos hok, Option.bind_some]
    rw [address_eq]
    have h := readUrl_eq (s := s.toList) (t := under p.dir (Http.pathText c)) hcol hp.1
    rw [urlPath_under hp.2 hc] at h
    exact h

private theorem consumer_plain (dir : List Seg) (hd : ∀ s ∈ dir, PlainText s) :
    (∀ c ∈ under dir "consumer".toList, c ≠ '?' ∧ c ≠ '#') ∧
    Http.splitPath (under dir "consumer".toList) = dir ++ ["consumer".toList] := by
  constructor
  · intro c hc
    exact (plain_under hd (t := "consumer".toList) (by decide +kernel) c hc).2
  · rw [splitPath_under hd, Http.splitPath_noSep (by decide +kernel)]

private theorem prefix_noDouble : ∀ (w : List Char) {t : List Char}, noDouble t = true →
    (w ++ "://".toList).isPrefixOf t = false
  | [], t, h => by
    cases hb : List.isPrefixOf ([] ++ "://".toList) t with
    | false => rfl
    | true =>
      exfalso
      cases t with
      | nil => simp at hb
      | cons c cs =>
        have hs := splitOnce_none h
        rw [List.nil_append] at hb
        rw [splitOnce, if_pos hb] at hs
        cases hs
  | x :: w, [], _ => rfl
  | x :: w, c :: cs, h => by
    rw [noDouble, Bool.and_eq_true] at h
    rw [List.cons_append, List.isPrefixOf, prefix_noDouble w h.2, Bool.and_false]

private theorem address_noDouble {p : Place} (hp : p.Plain) (slash : Bool) : noDouble (p.address none slash) = true := by
  simp only [Place.address, List.nil_append, List.append_assoc]
  refine noDouble_append _ hp.1.noSlash (noDouble_dir (fun s hs => (hp.2 s hs).1) _ ?_)
  cases slash <;> decide

private theorem not_websocket {p : Place} (hp : p.Plain) (slash : Bool) :
    ("ws://".toList.isPrefixOf (p.address none slash) || "wss://".toList.isPrefixOf (p.address none slash)) = false := by
  have h1 : "ws://".toList.isPrefixOf (p.address none slash) = false :=
    prefix_noDouble "ws".toList (address_noDouble hp slash)
  have h2 : "wss://".toList.isPrefixOf (p.address none slash) = false :=
    prefix_noDouble "wss".toList (address_noDouble hp slash)
  rw [h1, h2]
  rfl

private theorem authority_chars {p : Place} (hp : p.Plain) : ∀ c ∈ p.authority, c ≠ '/' ∧ c ≠ '?' ∧ c ≠ '#' := fun c hc => by
  obtain ⟨_, h1, h2, h3, _⟩ := hp.1.char hc
  exact ⟨h3, h1, h2⟩

/-- **C101**, consumers: with `ws`, with `wss` or without a scheme, if there is no slash at the end. -/
theorem C101_consumer_partial (p : Place) (hp : p.Plain) :
    ConsumerReaches p "ws" (p.address none) ∧
    ∀ s ∈ ["ws", "wss"], ConsumerReaches p s (p.address (some s)) := by
  obtain ⟨hq, hpath⟩ := consumer_plain p.dir fun s hs => (hp.2 s hs).1
  constructor
  · unfold ConsumerReaches consumerTarget consumerUrl
    rw [not_websocket hp, if_neg Bool.false_ne_true]
    have e : "ws://".toList ++ p.address none ++ "/consumer".toList =
        "ws".toList ++ "://".toList ++ (p.authority ++ '/' :: under p.dir "consumer".toList) := by
      rw [List.append_assoc]
      have := address_eq p none "consumer".toList
      simp only [List.nil_append] at this
      rw [← this]
      rfl
    rw [e, readUri_eq (by decide) (authority_chars hp) hq, hpath]
  · intro s hs
    have hcol : ':' ∉ s.toList := by
      rcases List.mem_cons.1 hs with rfl | hs
      · decide
      · rw [List.mem_singleton.1 hs]; decide
    have hpre : ("ws://".toList.isPrefixOf (p.address (some s)) || "wss://".toList.isPrefixOf (p.address (some s))) = true := by
      rcases List.mem_cons.1 hs with rfl | hs
      · simp [Place.address, List.isPrefixOf]
      · rw [List.mem_singleton.1 hs]; simp [Place.address, List.isPrefixOf]
    unfold ConsumerReaches consumerTarget consumerUrl
    rw [if_pos hpre]
    have e : p.address (some s) ++ "/consumer".toList =
        s.toList ++ "://".toList ++ (p.authority ++ '/' :: under p.dir "consumer".toList) := address_eq p (some s) _
    rw [e, readUri_eq hcol (authority_chars hp) hq, hpath]

/-- Without a scheme both clients reach a server that is not below a path: the consumer is accepted, and the producer's request has
the path on which C10, C42 and C63 are based. -/
theorem C101_without_scheme (a : List Char) (ha : PlainText a) (c : Call) (hc : PlainCall c) :
    (∃ t, consumerTarget a = some t ∧ t.authority = a ∧ accepts t.path = true) ∧
    ∃ t, producerTarget a c = some t ∧ t.authority = a ∧ t.path = (request c).path := by
  have hp : (⟨a, []⟩ : Place).Plain := ⟨ha, by simp⟩
  have e : (⟨a, []⟩ : Place).address none = a := by simp [Place.address]
  have h1 := (C101_consumer_partial _ hp).1
  have h2 := (C101_producer_partial _ hp c hc).1
  unfold ConsumerReaches at h1
  unfold ProducerReaches at h2
  rw [e] at h1 h2
  exact ⟨⟨_, h1, rfl, show accepts ["consumer".toList] = true by decide +kernel⟩, _, h2, rfl, rfl⟩

/-- **The full C101 is false**: an address with `http` or `https` leads a consumer to a host that is called `http` or `https`,
wherever the server is, and without encryption. -/
theorem C101_refuted_http_for_consumers (p : Place) (hp : p.Plain) (s : String) (hs : s ∈ ["http", "https"]) :
    consumerTarget (p.address (some s)) =
      some ⟨"ws".toList, s.toList ++ [':'], [] :: p.authority :: (p.dir ++ ["consumer".toList])⟩ := by
  obtain ⟨hq, hpath⟩ := consumer_plain p.dir fun s hs => (hp.2 s hs).1
  have hchars : ∀ c ∈ s.toList ++ [':'], c ≠ '/' ∧ c ≠ '?' ∧ c ≠ '#' := by
    rcases List.mem_cons.1 hs with rfl | hs
    · decide
    · rw [List.mem_singleton.1 hs]; decide
  have hpre : ("ws://".toList.isPrefixOf (p.address (some s)) || "wss://".toList.isPrefixOf (p.address (some s))) = false := by
    rcases List.mem_cons.1 hs with rfl | hs
    · simp [Place.address, List.isPrefixOf]
    · rw [List.mem_singleton.1 hs]; simp [Place.address, List.isPrefixOf]
  unfold consumerTarget consumerUrl
  rw [hpre, if_neg Bool.false_ne_true]
  have e : "ws://".toList ++ p.address (some s) ++ "/consumer".toList =
      "ws".toList ++ "://".toList ++ ((s.toList ++ [':']) ++ '/' :: '/' :: (p.authority ++ '/' :: under p.dir "consumer".toList)) := by
    rw [List.append_assoc]
    have := address_eq p (some s) "consumer".toList
    have h2 : p.address (some s) ++ "/consumer".toList = p.address (some s) ++ '/' :: "consumer".toList := rfl
    rw [h2, this]
    simp
  have ht : ∀ c ∈ '/' :: (p.authority ++ '/' :: under p.dir "consumer".toList), c ≠ '?' ∧ c ≠ '#' := by
    intro c hc
    rcases List.mem_cons.1 hc with rfl | hc
    · decide
    rcases List.mem_append.1 hc with hc | hc
    · exact (authority_chars hp c hc).2
    rcases List.mem_cons.1 hc with rfl | hc
    · decide
    · exact hq c hc
  have hsplit : Http.splitPath ('/' :: (p.authority ++ '/' :: under p.dir "consumer".toList)) =
      [] :: p.authority :: (p.dir ++ ["consumer".toList]) := by
    rw [Http.splitPath, if_pos (by decide), Http.splitPath_append _ _ fun c hc => (hp.1.char hc).1, hpath]
  rw [e, readUri_eq (by decide) hchars ht, hsplit]

/-- The Rust documentation's `http` and `https` are all that a producer accepts: with another scheme (`ws`, or `HTTP`) the client
panics. -/
theorem C101_refuted_other_schemes (p : Place) (s : String) (hcol : ':' ∉ s.toList) (h1 : s ≠ "http") (h2 : s ≠ "https")
    (slash : Bool) (c : Call) : producerTarget (p.address (some s) slash) c = none := by
  obtain ⟨r, hr⟩ := address_some_split p s slash hcol
  have t : ∀ q : String, s ≠ q → s.toList ≠ q.toList := by
    intro q hq he
    apply hq
    rw [← String.ofList_toList (s := s), he, String.ofList_toList]
  unfold producerTarget producerUrl
  rw [hr]
  simp only [if_neg (not_or.2 ⟨t _ h1, t _ h2⟩), Option.bind_none]

/-- So there is no scheme with which the same address serves a producer and a consumer. -/
theorem C101_refuted_no_scheme_for_both (p : Place) (hp : p.Plain) (s : String) (hcol : ':' ∉ s.toList) (c : Call) :
    ¬ ((∃ s', ProducerReaches p s' c (p.address (some s))) ∧ ∃ s', ConsumerReaches p s' (p.address (some s))) := by
  rintro ⟨⟨s1, h1⟩, s2, h2⟩
  by_cases hh : s ∈ ["http", "https"]
  · unfold ConsumerReaches at h2
    rw [C101_refuted_http_for_consumers p hp s hh] at h2
    have h3 := congrArg Target.path (Option.some.inj h2)
    cases hd : p.dir with
    | nil =>
      have h4 := congrArg List.length h3
      simp [hd] at h4
    | cons x xs =>
      rw [hd] at h3
      injection h3 with h3 _
      exact (hp.2 x (by rw [hd]; simp)).1.1 h3.symm
  · simp only [List.mem_cons, List.not_mem_nil, or_false, not_or] at hh
    unfold ProducerReaches at h1
    rw [C101_refuted_other_schemes p s hcol hh.1 hh.2] at h1
    cases h1

private theorem route_slash (post : Bool) : ∀ l : List Seg, Http.route post ([] :: l) = .notFound
  | [] => rfl
  | [a] => by
    unfold Http.route
    exact if_pos (by decide)
  | [a, b] => by
    unfold Http.route
    exact if_pos (.inl (by decide))
  | [a, b, c] => by
    unfold Http.route
    exact if_pos (.inl (by decide))
  | _ :: _ :: _ :: _ :: _ => rfl

/-- **The full C101 is false**: with a slash at the end of the address, the server has nothing at the path of any call of a producer
(404, and nothing is done), and does not accept consumers. -/
theorem C101_refuted_slash (a : List Char) (ha : PlainText a) (c : Call) (hc : PlainCall c) :
    (∀ scheme ∈ [none, some "http", some "https"], ∃ t, producerTarget ((⟨a, []⟩ : Place).address scheme true) c = some t ∧
      t.authority = a ∧ ∀ max (e : ServerEnv) hist, handle max e { request c with path := t.path } hist = (some ⟨404, .null⟩, hist)) ∧
    ∀ scheme ∈ [none, some "ws", some "wss"], ∃ t, consumerTarget ((⟨a, []⟩ : Place).address scheme true) = some t ∧
      t.authority = a ∧ accepts t.path = false := by
  have hp : (⟨a, []⟩ : Place).Plain := ⟨ha, by simp⟩
  have done : ∀ max (e : ServerEnv) hist,
      handle max e { request c with path := [] :: (request c).path } hist = (some ⟨404, .null⟩, hist) := by
    intro max e hist
    unfold handle
    simp only [route_slash]
  have hne : accepts ([] :: ["consumer".toList]) = false := by decide +kernel
  have hq : ∀ c ∈ '/' :: "consumer".toList, c ≠ '?' ∧ c ≠ '#' := by decide +kernel
  have hsp : Http.splitPath ('/' :: "consumer".toList) = [] :: ["consumer".toList] := by decide +kernel
  constructor
  · intro scheme hs
    simp only [List.mem_cons, List.not_mem_nil, or_false] at hs
    have go : ∀ s : List Char, ':' ∉ s → readUrl (s ++ "://".toList ++ (a ++ '/' :: '/' :: Http.pathText c)) =
        some ⟨s, a, [] :: (request c).path⟩ := by
      intro s hcol
      rw [readUrl_eq hcol ha, urlPath_under_slash hc]
    rcases hs with rfl | rfl | rfl
    · refine ⟨⟨"http".toList, a, [] :: (request c).path⟩, ?_, rfl, done⟩
      unfold producerTarget producerUrl
      rw [address_none_split hp]
      simp only [Option.bind_some]
      rw [← go "http".toList (by decide)]
      simp [Place.address]
    · refine ⟨⟨"http".toList, a, [] :: (request c).path⟩, ?_, rfl, done⟩
      obtain ⟨r, hr⟩ := address_some_split ⟨a, []⟩ "http" true (by decide)
      unfold producerTarget producerUrl
      rw [hr]
      simp only [true_or, if_true, Option.bind_some]
      rw [← go "http".toList (by decide)]
      simp [Place.address]
    · refine ⟨⟨"https".toList, a, [] :: (request c).path⟩, ?_, rfl, done⟩
      obtain ⟨r, hr⟩ := address_some_split ⟨a, []⟩ "https" true (by decide)
      unfold producerTarget producerUrl
      rw [hr]
      simp only [or_true, if_true, Option.bind_some]
      rw [← go "https".toList (by decide)]
      simp [Place.address]
  · intro scheme hs
    simp only [List.mem_cons, List.not_mem_nil, or_false] at hs
    have go : ∀ s : List Char, ':' ∉ s → readUri (s ++ "://".toList ++ (a ++ '/' :: '/' :: "consumer".toList)) =
        some ⟨s, a, [] :: ["consumer".toList]⟩ := by
      intro s hcol
      rw [readUri_eq hcol (authority_chars hp) hq, hsp]
    rcases hs with rfl | rfl | rfl
    · refine ⟨⟨"ws".toList, a, [] :: ["consumer".toList]⟩, ?_, rfl, hne⟩
      unfold consumerTarget consumerUrl
      rw [not_websocket hp, if_neg Bool.false_ne_true, ← go "ws".toList (by decide)]
      simp [Place.address]
    · refine ⟨⟨"ws".toList, a, [] :: ["consumer".toList]⟩, ?_, rfl, hne⟩
      unfold consumerTarget consumerUrl
      rw [if_pos (by simp [Place.address, List.isPrefixOf]), ← go "ws".toList (by decide)]
      simp [Place.address]
    · refine ⟨⟨"wss".toList, a, [] :: ["consumer".toList]⟩, ?_, rfl, hne⟩
      unfold consumerTarget consumerUrl
      rw [if_pos (by simp [Place.address, List.isPrefixOf]), ← go "wss".toList (by decide)]
      simp [Place.address]

/-- Neither of them is a matter of taste: C101 in full does not hold. -/
theorem C101_refuted : ¬ C101_full := fun h => by
  have hp : (⟨"localhost:3999".toList, []⟩ : Place).Plain := by
    refine ⟨?_, by simp⟩
    unfold PlainText
    decide +kernel
  have h1 := (h _ hp (some "http") (by simp) false .count (fun p hc => by cases hc)).2
  unfold ConsumerReaches at h1
  rw [C101_refuted_http_for_consumers _ hp "http" (by simp)] at h1
  have h2 := congrArg Target.authority (Option.some.inj h1)
  revert h2
  decide +kernel

/-- The addresses of the documentation are of this kind: `0.0.0.0:1312` and `https://services.example.com/opsqueue`
(producer/client.rs 47). -/
example : (⟨"0.0.0.0:1312".toList, []⟩ : Place).Plain ∧
    (⟨"services.example.com".toList, ["opsqueue".toList]⟩ : Place).Plain ∧
    (⟨"services.example.com".toList, ["opsqueue".toList]⟩ : Place).address (some "https") =
      "https://services.example.com/opsqueue".toList ∧ PlainCall (.get 7) := by
  unfold Place.Plain PlainText
  refine ⟨by decide +kernel, by decide +kernel, by decide +kernel, fun p h => by cases h⟩

/-- What the model yields for them, and for `http://localhost:3999`, which the README names, and which is good for producers only. -/
example :
    producerTarget "0.0.0.0:1312".toList .count =
      some ⟨"http".toList, "0.0.0.0:1312".toList, ["producer".toList, "submissions".toList, "count".toList]⟩ ∧
    (producerTarget "https://services.example.com/opsqueue".toList .version) =
      some ⟨"https".toList, "services.example.com".toList, ["opsqueue".toList, "producer".toList, "version".toList]⟩ ∧
    consumerTarget "http://localhost:3999".toList =
      some ⟨"ws".toList, "http:".toList, ["".toList, "localhost:3999".toList, "consumer".toList]⟩ ∧
    producerTarget "ws://localhost:3999".toList .count = none := by
  decide +kernel

/-- The 404 for a wrong path is not that of a submission that is not found. A producer that cancels a submission takes it for a
passing trouble and tries again (see C41). -/
example : Http.interpret (.cancel 7) ⟨404, .null⟩ = .error (.http { decode := true }) ∧
    Http.isEphemeral (.http { decode := true }) = true := by
  decide +kernel

end Opsqueue.Address
