import Verif.Proofs.ThruClient
import Verif.Proofs.Total
import Verif.Props.ChunkedRequest
import Verif.Props.Accept
import Verif.Props.ClientDecode
/-!
# Property C70: nothing waits for more than it needs

`c.silent N` is the connection `c` whose peer, having sent everything that it sends on `c`, is silent for `N` polls before it closes (`Spec/Stall.lean`).  If something
waited for the peer to send more, or to close, then it would be seen to take longer, or not to happen, when `N` grows.  The theorems say that it is the same
for every `N`, with the same number of steps.
-/

set_option linter.unusedSectionVars false
set_option synthInstance.maxSize 1000

namespace Tophat
open Spec

section
variable {ρ : Type} [AsyncRead ρ] [LawfulRead ρ] {σ : Type} [AsyncBufRead σ]

/-- **C70**: once the head of a request has arrived, the request is refused or handed to the endpoint at once, and as long as the endpoint is not told that the body has ended, nothing
(calls, reads, responses, how the iteration ends) depends on when the peer sends more or closes. -/
theorem C70_called {env : Env} {opts : ServerOpts} {endpoint : Endpoint σ} {fuel n : Nat} {c c' : Conn ρ} {ev : List Event} {res : Option AcceptRes} {h : Bytes}
    (hh : FirstHead (rem c.rd) h) (hs : acceptStep env opts endpoint fuel n c = .ret (c', ev, res)) (hr : ∀ x ∈ bodyReads ev, x.2 ≠ .data []) (N : Nat) :
    acceptStep env opts endpoint fuel n (c.silent N) = .ret (c'.silent N, ev, res) :=
  acceptStep_thru (f := fun r => Stall.talk r N) (thru_talk N) (alike_noEnd (thru_talk N)) hh hs (fun _ _ _ _ hb => hb.noEnd hr)

/-- **C70**: a body of declared length, all of which has arrived, is read to its end (and beyond) without waiting for anything that follows it. -/
theorem C70_fixed {env : Env} {opts : ServerOpts} {endpoint : Endpoint σ} {fuel n : Nat} {c c' : Conn ρ} {ev : List Event} {res : Option AcceptRes} {h : Bytes}
    (hh : FirstHead (rem c.rd) h) (hs : acceptStep env opts endpoint fuel n c = .ret (c', ev, res))
    (hl : ∀ head len, .call head len ∈ ev → ∃ k, len = some k ∧ h.length + k ≤ (rem c.rd).length) (N : Nat) :
    acceptStep env opts endpoint fuel n (c.silent N) = .ret (c'.silent N, ev, res) := by
  refine acceptStep_thru (f := fun r => Stall.talk r N) (thru_talk N) (alike_arrived (thru_talk N)) hh hs (fun head len body hc hb => ?_)
  obtain ⟨k, rfl, hk⟩ := hl head len hc
  exact hb.arrived (by rw [List.length_drop]; omega) _

/-- **C70**: a complete chunked body, whose framing takes at most 4096 bytes, is read to its end without waiting for anything that follows it.
(The endpoint reads with non-empty buffers, and not again after it has been told that the body has ended.) -/
theorem C70_chunked {env : Env} (hp : ∀ n, (env.pool n).Ok) {opts : ServerOpts} {endpoint : Endpoint σ} {fuel n : Nat} {c c' : Conn ρ} {ev : List Event} {res : Option AcceptRes} {h : Bytes}
    (hh : FirstHead (rem c.rd) h) (hs : acceptStep env opts endpoint fuel n c = .ret (c', ev, res)) (hl : ∀ head len, .call head len ∈ ev → len = none)
    {b x p : Bytes} {fs : List (Bytes × Bytes)} (hb : Roomy b p fs) (hn : fs.length ≤ 16) (hs' : (rem c.rd).drop h.length = b ++ x)
    (hk : ∀ x ∈ bodyReads ev, 0 < x.1) (hst : StopsAtEnd ((bodyReads ev).map (·.2))) (N : Nat) :
    acceptStep env opts endpoint fuel n (c.silent N) = .ret (c'.silent N, ev, res) := by
  refine acceptStep_thru (f := fun r => Stall.talk r N) (thru_talk N) (alike_arrivedC (thru_talk N)) hh hs (fun head len body hc hb' => ?_)
  have := hl head len hc
  subst this
  exact hb'.arrivedC (hp n) hb hn hs' hk hst

end

section
variable {ρ : Type} [AsyncRead ρ] [LawfulRead ρ] {σ : Type} [AsyncBufRead σ] [LawfulBufRead σ]

/-- **C70**: for a well-behaved endpoint, and a request that is refused or has a body of declared length that has arrived, there is a number of steps in which the request is
dealt with, however long the peer is silent afterwards. -/
theorem C70_in_time {env : Env} (hx : HexLenOk env.hexLen) (hp : ∀ n, (env.pool n).Ok) {opts : ServerOpts} {endpoint : Endpoint σ} (n : Nat) (c : Conn ρ) (he : endpoint.Tame env (rem c.rd).length)
    {h : Bytes} (hh : FirstHead (rem c.rd) h) (hl : ∀ i m t fs len, Judged env.uriOk h (.serve i m t fs len) → ∃ k, len = some k ∧ h.length + k ≤ (rem c.rd).length) :
    ∃ fuel c' ev res, ∀ N, acceptStep env opts endpoint fuel n (c.silent N) = .ret (Conn.silent c' N, ev, res) := by
  obtain ⟨fuel, c', ev, res, h1⟩ := acceptStep_total hx hp (opts := opts) n c he
  refine ⟨fuel, c', ev, res, fun N => C70_fixed hh h1 (fun head len hc => ?_) N⟩
  obtain ⟨_, h', i, fs, hv⟩ := call_inv (acceptStep_spec hx h1) hc
  have := hv.firstHead.unique hh; subst this
  exact hl _ _ _ _ _ hv.judged

end

section
variable {ρ : Type} [AsyncRead ρ] [LawfulRead ρ]

/-- **C70**, for the client: when the head of the response has arrived, `connect` returns the response, or an error, at once: it is the same, and after as many steps, however long the
server is silent afterwards. -/
theorem C70_client {now : Bytes} {pool : Pool} {fuel : Nat} {io : ρ} {d : ClientRes (ClientResponse ρ)} {h : Bytes} (hh : FirstReply (rem io) h)
    (hd : ClientDecode.decode now pool fuel io = .ret (.done d)) (N : Nat) :
    (∃ e, d = .err e ∧ ClientDecode.decode now pool fuel (Stall.talk io N) = .ret (.done (.err e))) ∨
    ∃ r r2, d = .ok r ∧ ClientDecode.decode now pool fuel (Stall.talk io N) = .ret (.done (.ok r2)) ∧ r2.status = r.status ∧ r2.headers = r.headers ∧ r2.length = r.length := by
  have key := clientDecode_thru (thru_talk N) hh hd
  cases d with
  | err e => exact .inl ⟨e, rfl, key⟩
  | ok r => exact .inr ⟨r, _, rfl, key, rfl, rfl, rfl⟩

/-- **C70**, for the client: the status, the headers and the declared length of the response do not depend on when the server sends more or closes; and a body of declared length,
all of which has arrived, is read to its end without waiting. -/
theorem C70_client_fixed {now : Bytes} {pool : Pool} {fuel : Nat} {io : ρ} {r : ClientResponse ρ} {h : Bytes} (hh : FirstReply (rem io) h)
    (hd : ClientDecode.decode now pool fuel io = .ret (.done (.ok r))) {k : Nat} (hl : r.length = some k) (hk : h.length + k ≤ (rem io).length)
    {ks : List Nat} {b' : ReplyBody ρ} {ps : List RPoll} (hr : polls r.body ks = .ret (b', ps)) (N : Nat) :
    ∃ r2 b2, ClientDecode.decode now pool fuel (Stall.talk io N) = .ret (.done (.ok r2)) ∧ r2.status = r.status ∧ r2.headers = r.headers ∧ r2.length = r.length ∧
      polls r2.body ks = .ret (b2, ps) := by
  refine ⟨r.on fun r => Stall.talk r N, b'.on fun r => Stall.talk r N, clientDecode_thru (thru_talk N) hh hd, rfl, rfl, rfl, ?_⟩
  obtain ⟨d, h1, h2⟩ := clientDecode_spec now pool fuel io
  rw [hd] at h1
  injection h1 with h1; subst h1
  cases h2 with
  | response a b c e g =>
    have := a.unique hh; subst this
    rename_i h' v t
    have ht : k ≤ t.length := by rw [e, List.length_append] at hk; omega
    cases g with
    | fixed g1 g2 =>
      injection hl with hl; subst hl
      obtain ⟨b1, rfl, h3⟩ := polls_stream hr
      exact polls_stream_of (polls_on (alike_arrived (thru_talk N)) ks h3 (g2.arrived ht _))
    | bare g1 =>
      obtain ⟨ps1, h3, _⟩ := polls_empty (ρ := ρ) ks
      have e3 : polls (ReplyBody.empty : ReplyBody ρ) ks = .ret (b', ps) := hr
      have e4 : ∀ (ks : List Nat) (ps : List RPoll) (b' : ReplyBody ρ), polls (ReplyBody.empty : ReplyBody ρ) ks = .ret (b', ps) → polls (ReplyBody.empty : ReplyBody (Stall ρ)) ks = .ret (b'.on fun r => Stall.talk r N, ps) := by
        intro ks
        induction ks with
        | nil =>
          intro ps b' h
          simp only [polls, Run.ret.injEq, Prod.mk.injEq] at h ⊢
          obtain ⟨rfl, rfl⟩ := h
          exact ⟨rfl, rfl⟩
        | cons k ks ih =>
          intro ps b' h
          have q : pollRead (ReplyBody.empty : ReplyBody ρ) k = .ret (.empty, .data []) := rfl
          have q' : pollRead (ReplyBody.empty : ReplyBody (Stall ρ)) k = .ret (.empty, .data []) := rfl
          rw [polls_cons_data q (by simp)] at h
          rw [polls_cons_data q' (by simp)]
          obtain ⟨⟨b2, ps1⟩, g3, g4⟩ := Run.bind_eq_ret.1 h
          simp only [Run.ret.injEq, Prod.mk.injEq] at g4
          obtain ⟨rfl, rfl⟩ := g4
          rw [ih _ _ g3]; rfl
      exact e4 ks ps b' e3
    | chunked g1 => cases hl

/-- **C70**, for the client: a complete chunked body, whose framing takes at most 4096 bytes, is read to its end without waiting for anything that follows it. -/
theorem C70_client_chunked {now : Bytes} {pool : Pool} (hpool : pool.Ok) {fuel : Nat} {io : ρ} {r : ClientResponse ρ} {h : Bytes} (hh : FirstReply (rem io) h)
    (hd : ClientDecode.decode now pool fuel io = .ret (.done (.ok r))) (hl : r.length = none)
    {b x p : Bytes} {fs : List (Bytes × Bytes)} (hb : Roomy b p fs) (hn : fs.length ≤ 16) (hs' : (rem io).drop h.length = b ++ x)
    {ks : List Nat} (hk : ∀ k ∈ ks, 0 < k) {b' : ReplyBody ρ} {ps : List RPoll} (hr : polls r.body ks = .ret (b', ps)) (hst : StopsAtEnd ps) (N : Nat) :
    ∃ r2 b2, ClientDecode.decode now pool fuel (Stall.talk io N) = .ret (.done (.ok r2)) ∧ r2.length = none ∧ polls r2.body ks = .ret (b2, ps) := by
  refine ⟨r.on fun r => Stall.talk r N, b'.on fun r => Stall.talk r N, clientDecode_thru (thru_talk N) hh hd, hl, ?_⟩
  obtain ⟨d, h1, h2⟩ := clientDecode_spec now pool fuel io
  rw [hd] at h1
  injection h1 with h1; subst h1
  cases h2 with
  | response a b0 c e g =>
    have := a.unique hh; subst this
    rename_i h' v t
    have ht : t = b ++ x := by rw [← hs', e]; simp
    cases g with
    | fixed g1 g2 => cases hl
    | bare g1 => cases hl
    | chunked g1 =>
      obtain ⟨b1, rfl, h3⟩ := polls_stream hr
      have hzip : (ks.zip ps).map (·.2) <+: ps := by
        have : ∀ (ks : List Nat) (ps : List RPoll), (ks.zip ps).map (·.2) <+: ps := by
          intro ks
          induction ks with
          | nil => intro ps; simp
          | cons k ks ih =>
            intro ps
            cases ps with
            | nil => simp
            | cons p ps => simpa using ih ps
        exact this ks ps
      refine polls_stream_of (polls_on (alike_arrivedC (thru_talk N)) ks h3 (g1.arrivedC hpool hb hn ht ?_ ?_))
      · intro y hy
        exact hk y.1 (List.of_mem_zip hy).1
      · intro a' p' b'' h' hp'
        obtain ⟨z, hz⟩ := hzip
        rw [h'] at hz
        have := hst a' p' (b'' ++ z) (by rw [← hz]; simp) hp'
        exact (List.append_eq_nil_iff.1 this).1

end

/-! ## Examples -/

/-- A request with a body of five bytes, complete, in two packets; then the peer is silent for a million polls.  It is answered. -/
example : ∃ c', acceptStep demoEnv plainOpts (reading [3, 8, 8, 8]) 1000 0
    ((connOf [ascii "POST /p HTTP/1.1\r\nHost: x\r\nContent-Length: 5\r\n\r\nab", ascii "cde"]).silent 1000000) =
    .ret (c', [.call ⟨ascii "POST", ascii "/p", [(ascii "host", [ascii "x"]), (ascii "content-length", [ascii "5"])]⟩ (some 5),
      .got 3 (.data (ascii "ab")), .got 8 .pending, .got 8 (.data (ascii "cde")), .got 8 (.data []),
      .wrote (responseHead .http11 200 [] (some 5) (ascii "NOW") ++ ascii "abcde")], none) := by
  obtain ⟨c', h⟩ := observed_ret (endpoint := reading [3, 8, 8, 8])
    (c := connOf [ascii "POST /p HTTP/1.1\r\nHost: x\r\nContent-Length: 5\r\n\r\nab", ascii "cde"])
    (ev := [.call ⟨ascii "POST", ascii "/p", [(ascii "host", [ascii "x"]), (ascii "content-length", [ascii "5"])]⟩ (some 5),
      .got 3 (.data (ascii "ab")), .got 8 .pending, .got 8 (.data (ascii "cde")), .got 8 (.data []),
      .wrote (responseHead .http11 200 [] (some 5) (ascii "NOW") ++ ascii "abcde")]) (res := none) (by decide +kernel)
  refine ⟨_, C70_fixed (h := ascii "POST /p HTTP/1.1\r\nHost: x\r\nContent-Length: 5\r\n\r\n") (by show FirstHead (Script.bytes _) _; decide +kernel) h ?_ 1000000⟩
  intro head len hc
  simp only [List.mem_cons, Event.call.injEq, reduceCtorEq, List.not_mem_nil, or_false] at hc
  exact ⟨5, hc.2, by show _ ≤ (Script.bytes _).length; decide +kernel⟩

/-- A chunked request (see `chunkedConn`), read to its end. -/
example (N : Nat) : ∃ c', acceptStep demoEnv plainOpts (reading [2, 8, 8, 8, 8]) 1000 0 (chunkedConn.silent N) =
    .ret (c', [.call ⟨ascii "POST", ascii "/c", [(ascii "host", [ascii "x"]), (ascii "transfer-encoding", [ascii "chunked"])]⟩ none,
      .got 2 (.data (ascii "ab")), .got 8 (.data (ascii "c")), .got 8 .pending, .got 8 (.data (ascii "de")), .got 8 (.data []),
      .wrote (responseHead .http11 200 [] (some 5) (ascii "NOW") ++ ascii "abcde")], none) := by
  obtain ⟨c', h⟩ := observed_ret (endpoint := reading [2, 8, 8, 8, 8]) (c := chunkedConn)
    (ev := [.call ⟨ascii "POST", ascii "/c", [(ascii "host", [ascii "x"]), (ascii "transfer-encoding", [ascii "chunked"])]⟩ none,
      .got 2 (.data (ascii "ab")), .got 8 (.data (ascii "c")), .got 8 .pending, .got 8 (.data (ascii "de")), .got 8 (.data []),
      .wrote (responseHead .http11 200 [] (some 5) (ascii "NOW") ++ ascii "abcde")]) (res := none) (by decide +kernel)
  have hb : Body (ascii "3\r\nabc\r\n2\r\nde\r\n0\r\n\r\n") (ascii "abcde") [] := by
    have h1 : SizeLine (ascii "3\r\n") (ascii "abc").length := ⟨ascii "3", [], [], by decide, by decide, by decide, by simp, .inl rfl⟩
    have h2 : SizeLine (ascii "2\r\n") (ascii "de").length := ⟨ascii "2", [], [], by decide, by decide, by decide, by simp, .inl rfl⟩
    exact ⟨ascii "3\r\nabc\r\n2\r\nde\r\n", ascii "0\r\n", ascii "\r\n", by decide, .cons h1 (by decide) (.cons h2 (by decide) .nil), lastLine, .blank (.inl rfl)⟩
  refine ⟨_, C70_chunked (fun _ => zeroPool_ok) (h := chunkedPost) (x := ascii "GET") (by show FirstHead (Script.bytes _) _; decide +kernel) h ?_ (roomy_of_length hb (by decide)) (by decide)
    (by show (Script.bytes _).drop _ = _; decide +kernel) (by decide) ?_ N⟩
  · intro head len hc
    simp only [List.mem_cons, Event.call.injEq, reduceCtorEq, List.not_mem_nil, or_false] at hc
    exact hc.2
  · intro a p b hab hp
    simp only [bodyReads, List.map_cons, List.map_nil] at hab
    rcases a with _ | ⟨_, _ | ⟨_, _ | ⟨_, _ | ⟨_, _ | ⟨_, a⟩⟩⟩⟩⟩ <;> simp at hab
    · rw [← hab.1] at hp; simp [ascii] at hp
    · rw [← hab.2.1] at hp; simp [ascii] at hp
    · rw [← hab.2.2.1] at hp; simp at hp
    · rw [← hab.2.2.2.1] at hp; simp [ascii] at hp
    · exact hab.2.2.2.2.2

/-- The hypotheses of `C70_in_time`, for the first of these. -/
example : ∃ fuel c' ev res, ∀ N, acceptStep demoEnv plainOpts (reading [3, 8, 8, 8]) fuel 0
    ((connOf [ascii "POST /p HTTP/1.1\r\nHost: x\r\nContent-Length: 5\r\n\r\nab", ascii "cde"]).silent N) = .ret (Conn.silent c' N, ev, res) := by
  have hh : FirstHead (rem (connOf [ascii "POST /p HTTP/1.1\r\nHost: x\r\nContent-Length: 5\r\n\r\nab", ascii "cde"]).rd)
      (ascii "POST /p HTTP/1.1\r\nHost: x\r\nContent-Length: 5\r\n\r\n") := by show FirstHead (Script.bytes _) _; decide +kernel
  refine C70_in_time exactHexLen_ok (fun _ => zeroPool_ok) 0 _ (fun _ _ _ => readThenSend_tame _ _ _ _ (by unfold usizeLimit; simp; omega)) hh (fun i m t fs len hj => ?_)
  obtain ⟨c', h⟩ := observed_ret (endpoint := reading [3, 8, 8, 8])
    (c := connOf [ascii "POST /p HTTP/1.1\r\nHost: x\r\nContent-Length: 5\r\n\r\nab", ascii "cde"])
    (ev := [.call ⟨ascii "POST", ascii "/p", [(ascii "host", [ascii "x"]), (ascii "content-length", [ascii "5"])]⟩ (some 5),
      .got 3 (.data (ascii "ab")), .got 8 .pending, .got 8 (.data (ascii "cde")), .got 8 (.data []),
      .wrote (responseHead .http11 200 [] (some 5) (ascii "NOW") ++ ascii "abcde")]) (res := none) (by decide +kernel)
  obtain ⟨_, h', _, _, hv⟩ := call_inv (acceptStep_spec exactHexLen_ok h) (List.mem_cons_self ..)
  have e := hv.firstHead.unique hh; subst e
  have := hv.judged.unique hj
  injection this with _ _ _ _ e5
  exact ⟨5, e5.symm, by show _ ≤ (Script.bytes _).length; decide +kernel⟩

/-- The client, and a response of declared length. -/
example (N : Nat) : ∃ r2 b2, ClientDecode.decode (ascii "NOW") zeroPool 100 (Stall.talk (replyOf [okHead.take 30, okHead.drop 30 ++ ascii "he", ascii "llo"]) N) = .ret (.done (.ok r2)) ∧
    r2.status = 404 ∧ r2.length = some 5 ∧ polls r2.body [3, 3, 8, 8, 8] = .ret (b2, [.data (ascii "he"), .pending, .data (ascii "llo"), .data [], .data []]) := by
  have key : replySeen [okHead.take 30, okHead.drop 30 ++ ascii "he", ascii "llo"] [3, 3, 8, 8, 8] =
      .ret (some (404, [(ascii "x-a", [ascii "1"]), (ascii "content-length", [ascii "5"]), (ascii "date", [ascii "NOW"])], some 5,
        [.data (ascii "he"), .pending, .data (ascii "llo"), .data [], .data []])) := by decide +kernel
  obtain ⟨d, h1, h2⟩ := Run.bind_eq_ret.1 key
  rcases d with _ | ⟨r | _⟩ <;> try (cases h2; done)
  obtain ⟨⟨b', ps⟩, h3, h4⟩ := Run.bind_eq_ret.1 h2
  simp only [Run.ret.injEq, Option.some.injEq, Prod.mk.injEq] at h4
  obtain ⟨e1, e2, e3, rfl⟩ := h4
  obtain ⟨r2, b2, g1, g2, g3, g4, g5⟩ := C70_client_fixed (h := okHead) (by show FirstReply (Script.bytes _) _; decide +kernel) h1 e3
    (by show _ ≤ (Script.bytes _).length; decide +kernel) h3 N
  exact ⟨r2, b2, g1, g2.trans e1, g4.trans e3, g5⟩

/-- The client, and a chunked response. -/
example (N : Nat) : ∃ r2 b2, ClientDecode.decode (ascii "NOW") zeroPool 100 (Stall.talk (replyOf [chunkedHead ++ ascii "3\r\nabc\r\n0\r\n\r\n"]) N) = .ret (.done (.ok r2)) ∧
    r2.length = none ∧ polls r2.body [8, 8] = .ret (b2, [.data (ascii "abc"), .data []]) := by
  have key : replySeen [chunkedHead ++ ascii "3\r\nabc\r\n0\r\n\r\n"] [8, 8] = .ret (some (200, [], none, [.data (ascii "abc"), .data []])) := by decide +kernel
  obtain ⟨d, h1, h2⟩ := Run.bind_eq_ret.1 key
  rcases d with _ | ⟨r | _⟩ <;> try (cases h2; done)
  obtain ⟨⟨b', ps⟩, h3, h4⟩ := Run.bind_eq_ret.1 h2
  simp only [Run.ret.injEq, Option.some.injEq, Prod.mk.injEq] at h4
  obtain ⟨e1, e2, e3, rfl⟩ := h4
  have hb : Body (ascii "3\r\nabc\r\n0\r\n\r\n") (ascii "abc") [] := by
    have h1 : SizeLine (ascii "3\r\n") (ascii "abc").length := ⟨ascii "3", [], [], by decide, by decide, by decide, by simp, .inl rfl⟩
    exact ⟨ascii "3\r\nabc\r\n", ascii "0\r\n", ascii "\r\n", by decide, .cons h1 (by decide) .nil, lastLine, .blank (.inl rfl)⟩
  refine C70_client_chunked zeroPool_ok (h := chunkedHead) (x := []) (by show FirstReply (Script.bytes _) _; decide +kernel) h1 e3 (roomy_of_length hb (by decide)) (by decide)
    (by show (Script.bytes _).drop _ = _; decide +kernel) (by decide) h3 ?_ N
  intro a p b hab hp
  rcases a with _ | ⟨_, _ | ⟨_, a⟩⟩ <;> simp at hab
  · rw [← hab.1] at hp; simp [ascii] at hp
  · exact hab.2.2

/-- The limit of `C70_chunked`: an endpoint that reads once more after it has been told that the chunked body has ended does wait for the peer. -/
theorem C70_reads_again : ∃ c', acceptStep demoEnv plainOpts (reading [8, 8, 8]) 1000 0
    ((⟨[.data (chunkedPost ++ ascii "3\r\nabc\r\n0\r\n\r\n")], ⟨[], [], 0⟩, []⟩ : Conn Script).silent 7) =
    .ret (c', [.call ⟨ascii "POST", ascii "/c", [(ascii "host", [ascii "x"]), (ascii "transfer-encoding", [ascii "chunked"])]⟩ none,
      .got 8 (.data (ascii "abc")), .got 8 (.data []), .got 8 .pending,
      .wrote (responseHead .http11 200 [] (some 3) (ascii "NOW") ++ ascii "abc")], none) := by
  have key : (acceptStep demoEnv plainOpts (reading [8, 8, 8]) 1000 0
    ((⟨[.data (chunkedPost ++ ascii "3\r\nabc\r\n0\r\n\r\n")], ⟨[], [], 0⟩, []⟩ : Conn Script).silent 7) >>= fun x => Run.ret x.2) =
    .ret ([.call ⟨ascii "POST", ascii "/c", [(ascii "host", [ascii "x"]), (ascii "transfer-encoding", [ascii "chunked"])]⟩ none,
      .got 8 (.data (ascii "abc")), .got 8 (.data []), .got 8 .pending,
      .wrote (responseHead .http11 200 [] (some 3) (ascii "NOW") ++ ascii "abc")], none) := by decide +kernel
  obtain ⟨⟨c', x⟩, h1, h2⟩ := Run.bind_eq_ret.1 key
  simp only [Run.ret.injEq] at h2
  subst h2
  exact ⟨c', h1⟩

end Tophat
