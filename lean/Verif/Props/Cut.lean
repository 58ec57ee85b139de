import Verif.Proofs.Truncated
import Verif.Props.Body
/-!
# Properties C14 and C88: bodies that are cut off
-/

set_option linter.unusedSectionVars false
set_option synthInstance.maxSize 1000

namespace Tophat
open Spec

section
variable {ρ : Type} [AsyncRead ρ] [LawfulRead ρ]

/-! ## C14 -/

/-- **C14 is false of the code wherever the message is cut**: of a chunked body (whose framing takes at most 4096 bytes, with at most 16 trailer fields) only a proper prefix comes, then the peer closes the connection.
Reading it never gives an error, and comes to the end of the stream. -/
theorem C14_refuted {r : ρ} {pool : Pool} (hp : pool.Ok) {w E p : Bytes} {fs : List (Bytes × Bytes)} (hb : Roomy (w ++ E) p fs) (hn : fs.length ≤ 16) (hE : E ≠ []) (hs : rem r = w) (hfin : fin r = none)
    {ks : List Nat} (hk : ∀ k ∈ ks, 0 < k) {b' : BufRd (ChunkedDecoder ρ)} {ps : List RPoll} (h : polls (BufRd.new (ChunkedDecoder.new r pool)) ks = .ret (b', ps)) :
    (∀ e, .err e ∉ ps) ∧ (p.length + meas r < ks.length → SawEof ps) :=
  have := chunked_truncated hp hk h hb hn rfl hE hs hfin
  ⟨this.1, this.2.2.1⟩

/-- **C14 is false of the code**: an endpoint that awaits `into_bytes` on such a body gets `Ok` with some of its data, wherever the message is cut. -/
theorem C14_refuted_into_bytes {grow : Nat → Nat → Nat} (hg : GrowOk grow) {env : Env} {opts : ServerOpts} {fuel n : Nat} (hp : (env.pool n).Ok) {c : Conn ρ} {req : Request ρ}
    (hr : Receives env opts fuel n c req) {h w E p : Bytes} (hh : FirstHead (rem c.rd) h) (hl : req.length = none) (hs : rem c.rd = h ++ w)
    {fs : List (Bytes × Bytes)} (hb : Roomy (w ++ E) p fs) (hn : fs.length ≤ 16) (hE : E ≠ []) (hfin : fin c.rd = none)
    {F : Nat} (hF : p.length + (meas c.rd + c.wr.script.length) < F) : ∃ r x, req.toBody.intoBytes grow F = .ret (r, .ok x) ∧ x <+: p := by
  have ha := hr.body hh
  rw [hl] at ha
  rw [hs, List.drop_left] at ha
  obtain ⟨t, x, h1, h2, -⟩ := ha.truncated hg F 1024 hp hfin hb hn hE hF
  exact ⟨_, x, intoBytes_ret (b := req.toBody) (by rw [toBody_reader]; exact h1), h2⟩

/-- **C14 is false of the code**: the same for a client that awaits `into_bytes` on a chunked response. -/
theorem C14_refuted_client {grow : Nat → Nat → Nat} (hg : GrowOk grow) {now : Bytes} {pool : Pool} (hp : pool.Ok) {io : ρ} {fuel : Nat} {res : ClientResponse ρ}
    (hd : ClientDecode.decode now pool fuel io = .ret (.done (.ok res))) {h w E p : Bytes} (hh : FirstReply (rem io) h) (hl : res.length = none) (hs : rem io = h ++ w)
    {fs : List (Bytes × Bytes)} (hb : Roomy (w ++ E) p fs) (hn : fs.length ≤ 16) (hE : E ≠ []) (hfin : fin io = none)
    {F : Nat} (hF : p.length + meas io < F) : ∃ r x, res.toBody.intoBytes grow F = .ret (r, .ok x) ∧ x <+: p := by
  obtain ⟨d, h1, h2⟩ := clientDecode_spec now pool fuel io
  rw [hd] at h1
  injection h1 with h1
  subst h1
  cases h2 with
  | response a b' c d f =>
    have := a.unique hh
    subst this
    rename_i t
    have ht : t = w := by rw [d] at hs; exact List.append_cancel_left hs
    subst ht
    cases f with
    | fixed f1 f => cases hl
    | bare f => cases hl
    | chunked f =>
      obtain ⟨t, x, h1, h2, -⟩ := f.truncated hg F 1024 hp hfin hb hn hE hF
      refine ⟨_, x, intoBytes_ret (r := ReplyBody.stream (.chunked t)) (x := .eof x) ?_, h2⟩
      rw [clientToBody_reader, readToEnd_lift ReplyBody.stream (fun a k => rfl), h1]
      rfl

/-! ## C88 -/

/-- **C88 is false of the code**: a request declares `k` bytes, fewer come, and the peer closes the connection.  An endpoint that awaits `into_bytes` gets `Ok` with what has come. -/
theorem C88_refuted {grow : Nat → Nat → Nat} (hg : GrowOk grow) {env : Env} {opts : ServerOpts} {fuel n : Nat} {c : Conn ρ} {req : Request ρ}
    (hr : Receives env opts fuel n c req) {h w : Bytes} (hh : FirstHead (rem c.rd) h) {k : Nat} (hl : req.length = some k) (hs : rem c.rd = h ++ w) (hk : w.length < k) (hfin : fin c.rd = none)
    {F : Nat} (hF : k + (meas c.rd + c.wr.script.length) < F) : ∃ r, req.toBody.intoBytes grow F = .ret (r, .ok w) := by
  have hb := hr.body hh
  rw [hl] at hb
  rw [hs, List.drop_left] at hb
  obtain ⟨t, x, h1, h2⟩ := hb.fixed_end hg F 1024
  refine ⟨.fixed t, ?_⟩
  rw [intoBytes_ret (b := req.toBody) (by rw [toBody_reader]; exact h1)]
  cases x with
  | running => dsimp only at h2; omega
  | err e =>
    dsimp only at h2
    rw [hfin] at h2
    cases h2.2
  | eof bs =>
    rw [h2.1, List.take_of_length_le (by omega)]
    rfl

/-- **C88 is false of the code**: the same for a client that awaits `into_bytes` on the response. -/
theorem C88_refuted_client {grow : Nat → Nat → Nat} (hg : GrowOk grow) {now : Bytes} {pool : Pool} {io : ρ} {fuel : Nat} {res : ClientResponse ρ}
    (hd : ClientDecode.decode now pool fuel io = .ret (.done (.ok res))) {h w : Bytes} (hh : FirstReply (rem io) h) {k : Nat} (hl : res.length = some k) (hs : rem io = h ++ w) (hk : w.length < k)
    (hfin : fin io = none) {F : Nat} (hF : k + meas io < F) : ∃ r, res.toBody.intoBytes grow F = .ret (r, .ok w) := by
  obtain ⟨d, h1, h2⟩ := clientDecode_spec now pool fuel io
  rw [hd] at h1
  injection h1 with h1
  subst h1
  cases h2 with
  | response a b' c d f =>
    have := a.unique hh
    subst this
    rename_i t
    have ht : t = w := by rw [d] at hs; exact List.append_cancel_left hs
    subst ht
    cases f with
    | chunked f => cases hl
    | bare f =>
      injection hl with hl
      omega
    | fixed f1 f =>
      injection hl with hl
      subst hl
      obtain ⟨t', x, h1, h2⟩ := f.fixed_end hg F 1024
      have hx : x = .eof t := by
        cases x with
        | running => dsimp only at h2; omega
        | err e =>
          dsimp only at h2
          rw [hfin] at h2
          cases h2.2
        | eof bs => rw [h2.1, List.take_of_length_le (by omega)]
      subst hx
      refine ⟨.stream (.fixed t'), intoBytes_ret (x := .eof t) ?_⟩
      rw [clientToBody_reader, readToEnd_lift ReplyBody.stream (fun a k => rfl), h1]
      rfl

/-- **C88**, what holds: what `into_bytes` returns is the first `k` bytes of what has come behind the head, so the application can tell by its length, and only by that, whether the body is complete;
and if the connection fails (instead of being closed) before the `k` bytes have come, that error is reported.
Missing: an error if the connection is closed, see `C88_refuted`. -/
theorem C88_length_partial {grow : Nat → Nat → Nat} (hg : GrowOk grow) {env : Env} {opts : ServerOpts} {fuel n : Nat} {c : Conn ρ} {req : Request ρ}
    (hr : Receives env opts fuel n c req) {h w : Bytes} (hh : FirstHead (rem c.rd) h) {k : Nat} (hl : req.length = some k) (hs : rem c.rd = h ++ w)
    {F : Nat} (hF : k + (meas c.rd + c.wr.script.length) < F) :
    ∃ r x, req.toBody.intoBytes grow F = .ret (r, x) ∧ x ≠ .running ∧ (∀ bs, x = .ok bs → bs = w.take k ∧ (bs.length = k ↔ k ≤ w.length)) ∧ (∀ e, x = .conversion e ↔ w.length < k ∧ fin c.rd = some e) := by
  have hb := hr.body hh
  rw [hl] at hb
  rw [hs, List.drop_left] at hb
  obtain ⟨t, x, h1, h2⟩ := hb.fixed_end hg F 1024
  refine ⟨.fixed t, .ofBytes x, intoBytes_ret (b := req.toBody) (by rw [toBody_reader]; exact h1), ?_, ?_, ?_⟩
  · cases x with
    | running => dsimp only at h2; omega
    | err e => intro hx; cases hx
    | eof ys => intro hx; cases hx
  · rintro bs hx
    cases x with
    | running => cases hx
    | err e => cases hx
    | eof ys =>
      injection hx with hx
      subst hx
      refine ⟨h2.1, ?_⟩
      rw [h2.1, List.length_take]
      omega
  · intro e
    cases x with
    | running => dsimp only at h2; omega
    | err e' =>
      constructor
      · intro hx
        injection hx with hx
        subst hx
        exact h2
      · rintro ⟨-, hx⟩
        rw [h2.2] at hx
        injection hx with hx
        subst hx
        rfl
    | eof ys =>
      constructor
      · intro hx; cases hx
      · rintro ⟨a, b⟩
        have := h2.2 a
        rw [b] at this
        cases this

/-- **C88**, what holds, for the client: the same. -/
theorem C88_length_client_partial {grow : Nat → Nat → Nat} (hg : GrowOk grow) {now : Bytes} {pool : Pool} {io : ρ} {fuel : Nat} {res : ClientResponse ρ}
    (hd : ClientDecode.decode now pool fuel io = .ret (.done (.ok res))) {h w : Bytes} (hh : FirstReply (rem io) h) {k : Nat} (hl : res.length = some k) (hs : rem io = h ++ w)
    {F : Nat} (hF : k + meas io < F) :
    ∃ r x, res.toBody.intoBytes grow F = .ret (r, x) ∧ x ≠ .running ∧ (∀ bs, x = .ok bs → bs = w.take k ∧ (bs.length = k ↔ k ≤ w.length)) ∧ (∀ e, x = .conversion e ↔ w.length < k ∧ fin io = some e) := by
  obtain ⟨d, h1, h2⟩ := clientDecode_spec now pool fuel io
  rw [hd] at h1
  injection h1 with h1
  subst h1
  cases h2 with
  | response a b' c d f =>
    have := a.unique hh
    subst this
    rename_i t
    have ht : t = w := by rw [d] at hs; exact List.append_cancel_left hs
    subst ht
    cases f with
    | chunked f => cases hl
    | bare f =>
      injection hl with hl
      subst hl
      obtain ⟨F, rfl⟩ : ∃ F', F = F' + 1 := ⟨F - 1, by omega⟩
      refine ⟨_, _, intoBytes_ret (readToEnd_empty F 1024), (by intro hx; cases hx), ?_, ?_⟩
      · intro bs hx
        injection hx with hx
        subst hx
        simp
      · intro e
        constructor
        · intro hx; cases hx
        · rintro ⟨hx, -⟩; omega
    | fixed f1 f =>
      injection hl with hl
      subst hl
      obtain ⟨t', x, h1, h2⟩ := f.fixed_end hg F 1024
      refine ⟨.stream (.fixed t'), .ofBytes x, intoBytes_ret ?_, ?_, ?_, ?_⟩
      · rw [clientToBody_reader, readToEnd_lift ReplyBody.stream (fun a k => rfl), h1]
        rfl
      · cases x with
        | running => dsimp only at h2; omega
        | err e => intro hx; cases hx
        | eof ys => intro hx; cases hx
      · rintro bs hx
        cases x with
        | running => cases hx
        | err e => cases hx
        | eof ys =>
          injection hx with hx
          subst hx
          refine ⟨h2.1, ?_⟩
          rw [h2.1, List.length_take]
          omega
      · intro e
        cases x with
        | running => dsimp only at h2; omega
        | err e' =>
          constructor
          · intro hx
            injection hx with hx
            subst hx
            exact h2
          · rintro ⟨-, hx⟩
            rw [h2.2] at hx
            injection hx with hx
            subst hx
            rfl
        | eof ys =>
          constructor
          · intro hx; cases hx
          · rintro ⟨a, b⟩
            have := h2.2 a
            rw [b] at this
            cases this

end

/-! ## The hypotheses are met -/

/-- A `POST` that declares three bytes and has two. -/
def shortConn : Conn Script := connOf [fixedPost, ascii "ab"]

/-- A `POST` that declares three bytes, of which two come before the connection fails. -/
def brokenConn : Conn Script := ⟨[.data fixedPost, .data (ascii "ab"), .err (.transport 7)], ⟨[], [], 0⟩, []⟩

theorem short_first : FirstHead (rem shortConn.rd) fixedPost := by
  show FirstHead (Script.bytes shortConn.rd) fixedPost
  decide +kernel

/-- `Ok` with two bytes, although three are declared. -/
example : ∃ req, Receives demoEnv plainOpts 1000 0 shortConn req ∧ req.length = some 3 ∧ FirstHead (rem shortConn.rd) fixedPost ∧ rem shortConn.rd = fixedPost ++ ascii "ab" ∧ fin shortConn.rd = none ∧
    ∃ r, req.toBody.intoBytes doubling 20 = .ret (r, .ok (ascii "ab")) := by
  have hm : meas shortConn.rd + shortConn.wr.script.length < 17 := by
    show Script.pendings shortConn.rd + _ < 17
    decide +kernel
  obtain ⟨req, h1, h2, h3⟩ := trailersOn_ret (c := shortConn) (conv := fun _ => .ret ()) (len := some 3) (x := ()) (by decide +kernel)
  have h4 : rem shortConn.rd = fixedPost ++ ascii "ab" := by
    show Script.bytes shortConn.rd = _
    decide +kernel
  have h5 : fin shortConn.rd = none := by decide +kernel
  exact ⟨req, h1, h2, short_first, h4, h5, C88_refuted doubling_ok h1 short_first h2 h4 (by decide) h5 (by omega)⟩

/-- The error of the connection. -/
example : ∃ req, Receives demoEnv plainOpts 1000 0 brokenConn req ∧ req.length = some 3 ∧
    (req.toBody.intoBytes doubling 20 >>= fun x => Run.ret x.2) = .ret (.conversion (.transport 7)) :=
  trailersOn_ret (c := brokenConn) (conv := fun b => b.intoBytes doubling 20 >>= fun x => Run.ret x.2) (by decide +kernel)

/-- The message of `cutConn`, complete. -/
theorem cut_roomy : Roomy (ascii "3\r\nabc\r\n2\r" ++ ascii "\nde\r\n0\r\n\r\n") (ascii "abcde") [] := by
  refine roomy_of_length ⟨ascii "3\r\nabc\r\n2\r\nde\r\n", ascii "0\r\n", ascii "\r\n", by decide, ?_, lastLine, emptySection⟩ (by decide)
  have h1 : SizeLine (ascii "3\r\n") (ascii "abc").length := ⟨ascii "3", [], [], by decide, by decide, by decide, by simp, .inl rfl⟩
  have h2 : SizeLine (ascii "2\r\n") (ascii "de").length := ⟨ascii "2", [], [], by decide, by decide, by decide, by simp, .inl rfl⟩
  exact Frames.cons h1 (by decide) (.cons h2 (by decide) .nil)

/-- A chunked body that is cut within a size line: `Ok` with three bytes. -/
example : ∃ req, Receives demoEnv plainOpts 1000 0 cutConn req ∧ req.length = none ∧ rem cutConn.rd = chunkedPost ++ ascii "3\r\nabc\r\n2\r" ∧ fin cutConn.rd = none ∧
    Roomy (ascii "3\r\nabc\r\n2\r" ++ ascii "\nde\r\n0\r\n\r\n") (ascii "abcde") [] ∧
    (req.toBody.intoBytes doubling 20 >>= fun x => Run.ret x.2) = .ret (.ok (ascii "abc")) := by
  obtain ⟨req, h1, h2, h3⟩ := trailersOn_ret (c := cutConn) (conv := fun b => b.intoBytes doubling 20 >>= fun x => Run.ret x.2) (len := none) (x := .ok (ascii "abc")) (by decide +kernel)
  exact ⟨req, h1, h2, by show Script.bytes cutConn.rd = _; decide +kernel, by decide +kernel, cut_roomy, h3⟩

end Tophat
