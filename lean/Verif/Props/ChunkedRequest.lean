import Verif.Props.ServerDecode
/-!
# Properties C59 and C60: chunked bodies, old buffer contents, and chunked request bodies
-/

set_option linter.unusedSectionVars false
set_option synthInstance.maxSize 1000

namespace Tophat
open Spec

/-! ## C59 -/

/-- Reads once with a buffer of each of the given lengths, also after errors. -/
def readsOn {ρ : Type} [AsyncRead ρ] : ρ → List Nat → Run (ρ × List RPoll)
  | r, [] => .ret (r, [])
  | r, k :: ks => do
    let (r, p) ← pollRead r k
    let (r, ps) ← readsOn r ks
    .ret (r, p :: ps)

/-- A pool whose second block holds what is left of another connection's traffic. -/
def usedPool : Pool :=
  ⟨fun i => if i = 2 then ascii "......5\r\nSECRE" ++ List.replicate (initialCapacity - 14) 0 else List.replicate initialCapacity 0, fun c => c + 1024, 0⟩

theorem usedPool_ok : usedPool.Ok := by
  refine ⟨fun i => ?_, fun c => Nat.le_refl _⟩
  unfold usedPool
  dsimp only
  split
  · rw [List.length_append, List.length_replicate]; decide
  · exact List.length_replicate

/-- The answers only. -/
def answersOn (inner : Script) (pool : Pool) (ks : List Nat) : Run (List RPoll) := do
  let (_, ps) ← readsOn (ChunkedDecoder.new inner pool) ks
  .ret ps

/-- **C59 is false of the code**: a stream with one chunk and then garbage; the third read, after the error, delivers bytes that another connection left in a recycled block. -/
theorem C59_refuted : ∃ d', readsOn (ChunkedDecoder.new ([.data (ascii "1\r\na\r\nZZZZZZZZ")] : Script) usedPool) [8, 8, 8] =
    .ret (d', [.data (ascii "a"), .err .chunkSize, .data (ascii "SECRE")]) := by
  have key : answersOn [.data (ascii "1\r\na\r\nZZZZZZZZ")] usedPool [8, 8, 8] = .ret [.data (ascii "a"), .err .chunkSize, .data (ascii "SECRE")] := by decide +kernel
  unfold answersOn at key
  obtain ⟨⟨d, ps⟩, h1, h2⟩ := Run.bind_eq_ret.1 key
  simp only [Run.ret.injEq] at h2
  subst h2
  exact ⟨d, h1⟩

section
variable {ρ : Type} [AsyncRead ρ] [LawfulRead ρ] {σ : Type} [AsyncBufRead σ]

/-- **C59**, what holds: up to and including the first error, whatever the blocks of the pool contain, all bytes delivered are carried by the chunks of the stream itself.
Missing: reads after an error. -/
theorem C59_own_bytes_partial {inner : ρ} {pool : Pool} (hp : pool.Ok) {ks : List Nat} (hk : ∀ k ∈ ks, 0 < k)
    {d' : ChunkedDecoder ρ} {ps : List RPoll} (h : polls (ChunkedDecoder.new inner pool) ks = .ret (d', ps)) : Carries (rem inner) (received ps) :=
  C12_prefix hp hk h

end

/-- The same stream, up to the error. -/
example : usedPool.Ok ∧ ∃ d', polls (ChunkedDecoder.new ([.data (ascii "1\r\na\r\nZZZZZZZZ")] : Script) usedPool) [8, 8, 8] =
    .ret (d', [.data (ascii "a"), .err .chunkSize]) := by
  refine ⟨usedPool_ok, ?_⟩
  have key : (polls (ChunkedDecoder.new ([.data (ascii "1\r\na\r\nZZZZZZZZ")] : Script) usedPool) [8, 8, 8] >>= fun x => Run.ret x.2) = .ret [.data (ascii "a"), .err .chunkSize] := by
    decide +kernel
  obtain ⟨⟨d, ps⟩, h1, h2⟩ := Run.bind_eq_ret.1 key
  simp only [Run.ret.injEq] at h2
  subst h2
  exact ⟨d, h1⟩

section
variable {ρ : Type} [AsyncRead ρ] [LawfulRead ρ] {σ : Type} [AsyncBufRead σ]

/-! ## C60 -/

/-- **C60**: whatever an endpoint reads (up to the first error) from a chunked body is a prefix of bytes carried by the chunks that follow the head. -/
theorem C60_prefix {env : Env} (hx : HexLenOk env.hexLen) (hp : ∀ n, (env.pool n).Ok) {opts : ServerOpts} {endpoint : Endpoint σ} {fuel n : Nat} {c c' : Conn ρ}
    {ev : List Event} {res : Option AcceptRes} (hs : acceptStep env opts endpoint fuel n c = .ret (c', ev, res)) {head : ReqHead}
    (hc : .call head none ∈ ev) {h : Bytes} (hh : FirstHead (rem c.rd) h) :
    ∃ x, Carries ((rem c.rd).drop h.length) x ∧ received ((untilErr (bodyReads ev)).map (·.2)) <+: x := by
  obtain ⟨_, h', i, fs, hv⟩ := call_inv (acceptStep_spec hx hs) hc
  have := hv.firstHead.unique hh; subst this
  obtain ⟨body, b1, h1, h2⟩ := hv.reads
  obtain ⟨r, t', e1, _, _, e2⟩ := h1.chunked_polls h2
  rw [← e1]
  exact chunked_prefix (hp n) e2

/-- **C60**: if the head is followed by a complete chunked body `b` whose framing takes at most 4096 bytes (with at most 16 trailer fields), then an endpoint that reads with non-empty buffers gets a prefix of its payload;
when it sees the end (or an error) it has got all of the payload; and it sees that at the latest at the read number `p.length + meas c.rd + c.wr.script.length + 1`. -/
theorem C60_complete {env : Env} (hx : HexLenOk env.hexLen) (hp : ∀ n, (env.pool n).Ok) {opts : ServerOpts} {endpoint : Endpoint σ} {fuel n : Nat} {c c' : Conn ρ}
    {ev : List Event} {res : Option AcceptRes} (hs : acceptStep env opts endpoint fuel n c = .ret (c', ev, res)) {head : ReqHead}
    (hc : .call head none ∈ ev) {h : Bytes} (hh : FirstHead (rem c.rd) h) (hk : ∀ x ∈ bodyReads ev, 0 < x.1)
    {b x p : Bytes} {fs : List (Bytes × Bytes)} (hb : Roomy b p fs) (hn : fs.length ≤ 16) (hs' : (rem c.rd).drop h.length = b ++ x) :
    received ((untilErr (bodyReads ev)).map (·.2)) <+: p ∧
    (SawEof ((untilErr (bodyReads ev)).map (·.2)) ∨ (∃ e, .err e ∈ (untilErr (bodyReads ev)).map (·.2)) → received ((untilErr (bodyReads ev)).map (·.2)) = p) ∧
    (p.length + meas c.rd + c.wr.script.length < (bodyReads ev).length →
      SawEof ((untilErr (bodyReads ev)).map (·.2)) ∨ ∃ e, .err e ∈ (untilErr (bodyReads ev)).map (·.2)) := by
  obtain ⟨_, h', i, gs, hv⟩ := call_inv (acceptStep_spec hx hs) hc
  have := hv.firstHead.unique hh; subst this
  obtain ⟨body, b1, h1, h2⟩ := hv.reads
  obtain ⟨r, t', e1, _, e3, e2⟩ := h1.chunked_polls h2
  have hk' : ∀ j ∈ (untilErr (bodyReads ev)).map (·.1), 0 < j := by
    intro j hj
    obtain ⟨x, hx, rfl⟩ := List.mem_map.1 hj
    exact hk x (untilErr_mem _ x hx)
  obtain ⟨g1, g2, g3⟩ := chunked_roomy (hp n) hk' e2 hb hn (by rw [e1]; exact hs')
  refine ⟨g1, g2, fun hl => ?_⟩
  by_cases he : ∃ e j, (j, .err e) ∈ bodyReads ev
  · obtain ⟨e, j, he⟩ := untilErr_err _ he
    exact .inr ⟨e, List.mem_map.2 ⟨_, he, rfl⟩⟩
  · refine g3 ?_
    rw [untilErr_eq _ he, List.length_map]
    omega

/-- **C60** for bodies of at most 4096 bytes. -/
theorem C60_small {env : Env} (hx : HexLenOk env.hexLen) (hp : ∀ n, (env.pool n).Ok) {opts : ServerOpts} {endpoint : Endpoint σ} {fuel n : Nat} {c c' : Conn ρ}
    {ev : List Event} {res : Option AcceptRes} (hs : acceptStep env opts endpoint fuel n c = .ret (c', ev, res)) {head : ReqHead}
    (hc : .call head none ∈ ev) {h : Bytes} (hh : FirstHead (rem c.rd) h) (hk : ∀ x ∈ bodyReads ev, 0 < x.1)
    {b x p : Bytes} {fs : List (Bytes × Bytes)} (hb : Body b p fs) (hlen : b.length ≤ 4096) (hn : fs.length ≤ 16) (hs' : (rem c.rd).drop h.length = b ++ x) :
    received ((untilErr (bodyReads ev)).map (·.2)) <+: p ∧
    (SawEof ((untilErr (bodyReads ev)).map (·.2)) ∨ (∃ e, .err e ∈ (untilErr (bodyReads ev)).map (·.2)) → received ((untilErr (bodyReads ev)).map (·.2)) = p) ∧
    (p.length + meas c.rd + c.wr.script.length < (bodyReads ev).length →
      SawEof ((untilErr (bodyReads ev)).map (·.2)) ∨ ∃ e, .err e ∈ (untilErr (bodyReads ev)).map (·.2)) :=
  C60_complete hx hp hs hc hh hk (roomy_of_length hb hlen) hn hs'

end

def chunkedPost : Bytes := ascii "POST /c HTTP/1.1\r\nHost: x\r\nTransfer-Encoding: chunked\r\n\r\n"
def chunkedConn : Conn Script := connOf [chunkedPost ++ ascii "3\r\nabc\r\n2\r", ascii "\nde\r\n0\r\n\r\nGET"]

/-- A chunked request in two packets. -/
example : (∃ c', acceptStep demoEnv plainOpts (reading [2, 8, 8, 8, 8]) 1000 0 chunkedConn =
    .ret (c', [.call ⟨ascii "POST", ascii "/c", [(ascii "host", [ascii "x"]), (ascii "transfer-encoding", [ascii "chunked"])]⟩ none,
      .got 2 (.data (ascii "ab")), .got 8 (.data (ascii "c")), .got 8 .pending, .got 8 (.data (ascii "de")), .got 8 (.data []),
      .wrote (responseHead .http11 200 [] (some 5) (ascii "NOW") ++ ascii "abcde")], none)) ∧
    Body (ascii "3\r\nabc\r\n2\r\nde\r\n0\r\n\r\n") (ascii "abcde") [] ∧ FirstHead (rem chunkedConn.rd) chunkedPost ∧
    (rem chunkedConn.rd).drop chunkedPost.length = ascii "3\r\nabc\r\n2\r\nde\r\n0\r\n\r\n" ++ ascii "GET" := by
  refine ⟨observed_ret (by decide +kernel), ?_, by show FirstHead (Script.bytes _) _; decide +kernel, by show (Script.bytes _).drop _ = _; decide +kernel⟩
  have h1 : SizeLine (ascii "3\r\n") (ascii "abc").length := ⟨ascii "3", [], [], by decide, by decide, by decide, by simp, .inl rfl⟩
  have h2 : SizeLine (ascii "2\r\n") (ascii "de").length := ⟨ascii "2", [], [], by decide, by decide, by decide, by simp, .inl rfl⟩
  exact ⟨ascii "3\r\nabc\r\n2\r\nde\r\n", ascii "0\r\n", ascii "\r\n", by decide, .cons h1 (by decide) (.cons h2 (by decide) .nil), lastLine, .blank (.inl rfl)⟩

end Tophat
