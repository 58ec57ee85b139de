import Verif.Proofs.Case
import Verif.Proofs.RoundTrip
/-!
# Property C80: upper and lower case
-/

set_option linter.unusedSectionVars false

set_option synthInstance.maxSize 1000

namespace Tophat
open Spec

section
variable {ρ : Type} [AsyncRead ρ] [LawfulRead ρ] {σ : Type} [AsyncBufRead σ]

/-- **C80**, the server: two requests that differ only in the case of field names, and of the values of Transfer-Encoding, are treated alike, however they arrive: either both are answered with the same bytes, or the endpoint is
called with both, and they have the same method, target and length, and under every name the same values (for Transfer-Encoding: but for their case).  With `free = []`, everything is the same.
(The two requests may also differ in the blanks around the values; the transports accept what is written, and no timeout fires.)

Missing: the value of Expect, for which the case matters (`C80_refuted_expect`). -/
theorem C80_server_partial {ρ₂ : Type} [AsyncRead ρ₂] [LawfulRead ρ₂] {σ₂ : Type} [AsyncBufRead σ₂] {env : Env} (hx : HexLenOk env.hexLen)
    {opts opts₂ : ServerOpts} {endpoint : Endpoint σ} {endpoint₂ : Endpoint σ₂} {fuel fuel₂ n : Nat}
    {c c' : Conn ρ} {ev : List Event} {res : Option AcceptRes} {c₂ c₂' : Conn ρ₂} {ev₂ : List Event} {res₂ : Option AcceptRes} {h h₂ m t : Bytes} {v : Nat} {fs gs : List (Bytes × Bytes)} {free : List Bytes}
    (hh : FirstHead (rem c.rd) h) (hh₂ : FirstHead (rem c₂.rd) h₂) (hr : c.wr.Reliable) (hr₂ : c₂.wr.Reliable)
    (ht : NoTimeout opts c) (ht₂ : NoTimeout opts₂ c₂)
    (hd : HasHead h m t v fs) (hd₂ : HasHead h₂ m t v gs) (hc : Recased free fs gs) (hf : ∀ k ∈ free, k = ascii "transfer-encoding")
    (hs : acceptStep env opts endpoint fuel n c = .ret (c', ev, res))
    (hs₂ : acceptStep env opts₂ endpoint₂ fuel₂ n c₂ = .ret (c₂', ev₂, res₂)) :
    Pairwise (SameEvent free) (upToCall ev) (upToCall ev₂) ∧ res = res₂ := by
  have a := acceptStep_spec hx hs
  have b := acceptStep_spec hx hs₂
  have hrefl : ∀ e, (∀ hd len, e ≠ .call hd len) → SameEvent free e e := by
    intro e he
    cases e with
    | call hd len => exact absurd rfl (he hd len)
    | wrote => rfl
    | got => rfl
  have hint : ∀ i, Pairwise (SameEvent free) (Spec.interim i) (Spec.interim i) := by
    intro i
    cases i
    · exact .nil
    · exact .cons (hrefl _ (by intro _ _ h; cases h)) .nil
  obtain ⟨x, hx⟩ := Judged.total env.uriOk h
  rcases judged_recased hf hd hd₂ hc hx with ⟨i, st, rfl, hy⟩ | ⟨rfl, hy⟩ | ⟨i, len, rfl, hy⟩
  · obtain ⟨a1, a2, _⟩ := refused_inv a hh hx hr ht
    obtain ⟨b1, b2, _⟩ := refused_inv b hh₂ hy hr₂ ht₂
    refine ⟨?_, by rw [a1, b1]⟩
    rw [a2, b2]
    cases i <;> exact Pairwise.refl (fun e => by
      cases e with
      | call hd len => exact ⟨rfl, rfl, rfl, fun k => .refl (fun _ => .inl rfl) _⟩
      | wrote => rfl
      | got => rfl) _
  · obtain ⟨a1, x, a2, _, _, a3⟩ := gaveUp_inv a hh hx ht
    obtain ⟨b1, y, b2, _, _, b3⟩ := gaveUp_inv b hh₂ hy ht₂
    refine ⟨?_, by rw [a1, b1]⟩
    rw [a2, b2, a3 hr, b3 hr₂]
    exact .cons rfl .nil
  · obtain ⟨a1, hm, a2⟩ := served_inv a hh hx (fun _ => hr) ht
    obtain ⟨b1, hm₂, b2⟩ := served_inv b hh₂ hy (fun _ => hr₂) ht₂
    have e1 := a2.headers
    have e2 := b2.headers
    obtain ⟨_, _, _, _, _, _, _, _, _, _, _, _, _, _, rfl⟩ := a2.run
    obtain ⟨_, _, _, _, _, _, _, _, _, _, _, _, _, _, rfl⟩ := b2.run
    refine ⟨?_, by rw [a1, b1]⟩
    have hcall : SameEvent free (.call ⟨m, t, hm⟩ len) (.call ⟨m, t, hm₂⟩ len) := by
      refine ⟨rfl, rfl, rfl, fun k => ?_⟩
      rw [e1.values, e2.values]
      exact hc.values k
    cases i
    · exact .cons hcall .nil
    · exact .cons rfl (.cons hcall .nil)

/-- **C80**, the client: two responses that differ only in the case of field names are treated alike: `connect` fails for both, or it returns, for both, the same status, the same length, and under every name the same values.

Missing: the value of Transfer-Encoding, for which the case matters (`C80_refuted_client`). -/
theorem C80_client_partial {ρ₂ : Type} [AsyncRead ρ₂] [LawfulRead ρ₂] {now : Bytes} {pool pool₂ : Pool} {fuel fuel₂ : Nat} {io : ρ} {io₂ : ρ₂} {r : ClientRes (ClientResponse ρ)} {r₂ : ClientRes (ClientResponse ρ₂)}
    (hs : ClientDecode.decode now pool fuel io = .ret (.done r)) (hs₂ : ClientDecode.decode now pool₂ fuel₂ io₂ = .ret (.done r₂)) {h h₂ : Bytes} {v code : Nat} {fs gs : List (Bytes × Bytes)}
    (hh : FirstReply (rem io) h) (hh₂ : FirstReply (rem io₂) h₂) (hl : h.length < 8192) (hl₂ : h₂.length < 8192) (hd : HasReply h v code fs) (hd₂ : HasReply h₂ v code gs) (hc : Recased [] fs gs) :
    (∃ e e₂, r = .err e ∧ r₂ = .err e₂) ∨
      ∃ res res₂, r = .ok res ∧ r₂ = .ok res₂ ∧ res.status = res₂.status ∧ res.length = res₂.length ∧ ∀ k, res.headers.getAll k = res₂.headers.getAll k := by
  have e : ∀ k, valuesOf k fs = valuesOf k gs := fun k => hc.same (by simp)
  have ed : ∀ k, valuesOf k (withDate fs now) = valuesOf k (withDate gs now) := by
    intro k
    unfold withDate
    rw [valuesOf_append, valuesOf_append, e, e]
  have key : ∀ {ρ : Type} [AsyncRead ρ] [LawfulRead ρ] {pool : Pool} {fuel : Nat} {io : ρ} {r : ClientRes (ClientResponse ρ)} {h : Bytes} {x : Reply}, ClientDecode.decode now pool fuel io = .ret (.done r) →
      FirstReply (rem io) h → h.length < 8192 → ReplyTo h x → (x = .reject ∧ ∃ e, r = .err e) ∨ ∃ res s e m, r = .ok res ∧ ResponseOk now pool s e m x res := by
    intro ρ _ _ pool fuel io r h x hs hh hl hx
    obtain ⟨d, h1, h2⟩ := clientDecode_spec now pool fuel io
    rw [hs] at h1
    injection h1 with h1
    subst h1
    cases h2 with
    | none a => exact absurd hh.2.1 (a _ hh.1)
    | long a b c => have := c h hh; omega
    | reject a b c =>
      have := hh.unique a; subst this
      exact .inl ⟨hx.unique c, _, rfl⟩
    | @response h' v' t res a b c d f =>
      have := hh.unique a; subst this
      have := hx.unique c; subst this
      exact .inr ⟨_, _, _, _, rfl, f⟩
  obtain ⟨x, hx⟩ : ∃ x, ReplyTo h x := by
    obtain ⟨d, h1, h2⟩ := clientDecode_spec now pool fuel io
    rw [hs] at h1
    injection h1 with h1
    subst h1
    cases h2 with
    | none a => exact absurd hh.2.1 (a _ hh.1)
    | long a b c => have := c h hh; omega
    | reject a b c => have := hh.unique a; subst this; exact ⟨_, c⟩
    | response a b c => have := hh.unique a; subst this; exact ⟨_, c⟩
  rcases replyTo_recased hd hd₂ hc hx with ⟨rfl, hy⟩ | ⟨rfl, hy⟩ | ⟨k, rfl, hy⟩ | ⟨rfl, hy⟩
  · rcases key hs hh hl hx with ⟨_, a⟩ | ⟨_, _, _, _, _, a⟩
    · rcases key hs₂ hh₂ hl₂ hy with ⟨_, b⟩ | ⟨_, _, _, _, _, b⟩
      · obtain ⟨e1, a⟩ := a; obtain ⟨e2, b⟩ := b; exact .inl ⟨e1, e2, a, b⟩
      · cases b
    · cases a
  · rcases key hs hh hl hx with ⟨a, _⟩ | ⟨_, _, _, _, rfl, a⟩
    · cases a
    · rcases key hs₂ hh₂ hl₂ hy with ⟨b, _⟩ | ⟨_, _, _, _, rfl, b⟩
      · cases b
      · cases a; cases b; exact .inr ⟨_, _, rfl, rfl, rfl, rfl, fun _ => rfl⟩
  · rcases key hs hh hl hx with ⟨a, _⟩ | ⟨_, _, _, _, rfl, a⟩
    · cases a
    · rcases key hs₂ hh₂ hl₂ hy with ⟨b, _⟩ | ⟨_, _, _, _, rfl, b⟩
      · cases b
      · cases a with
        | fixed a _ => cases b with
          | fixed b _ => exact .inr ⟨_, _, rfl, rfl, rfl, rfl, fun k => by dsimp only; rw [a.values, b.values, ed]⟩
  · rcases key hs hh hl hx with ⟨a, _⟩ | ⟨_, _, _, _, rfl, a⟩
    · cases a
    · rcases key hs₂ hh₂ hl₂ hy with ⟨b, _⟩ | ⟨_, _, _, _, rfl, b⟩
      · cases b
      · cases a with
        | bare a => cases b with
          | bare b => exact .inr ⟨_, _, rfl, rfl, rfl, rfl, fun k => by dsimp only; rw [a.values, b.values, ed]⟩

/-- **C80 is false of the client**: a response that says chunked in any other case than lower case loses its body, whatever that is. -/
theorem C80_refuted_client {now : Bytes} {pool : Pool} {fuel : Nat} {io : ρ} {res : ClientResponse ρ} (hs : ClientDecode.decode now pool fuel io = .ret (.done (.ok res))) {h v : Bytes} {code : Nat}
    {fs : List (Bytes × Bytes)} (hh : FirstReply (rem io) h) (hd : HasReply h 1 code fs) (hv : valuesOf (ascii "transfer-encoding") fs = [v]) (hv' : v ≠ ascii "chunked") :
    (valuesOf (ascii "content-length") fs = []) ∧ res.length = some 0 ∧ ∀ k, ∃ b, AsyncRead.pollRead res.body k = .ret (b, .data []) := by
  obtain ⟨d, h1, h2⟩ := clientDecode_spec now pool fuel io
  rw [hs] at h1
  injection h1 with h1
  subst h1
  have hc : ¬ SaysChunked fs := by
    unfold SaysChunked; rw [hv]; intro e; injection e with e; exact hv' e
  cases h2 with
  | @response h' x t res a b c d f =>
    have := hh.unique a; subst this
    cases c with
    | malformed c => exact absurd hd (c _ _ _)
    | version _ _ | ambiguous _ _ | length _ _ _ | status _ _ _ => cases f
    | chunked c c1 c2 => obtain ⟨-, -, rfl⟩ := c.unique hd; exact absurd c2 hc
    | fixed c c1 c2 c3 _ =>
      obtain ⟨-, -, rfl⟩ := c.unique hd
      refine absurd ⟨?_, by rw [hv]; simp⟩ c1
      intro e; rw [e] at c2; cases c2
    | bare c c1 c2 c3 =>
      obtain ⟨-, -, rfl⟩ := c.unique hd
      refine ⟨c2, ?_⟩
      cases f
      exact ⟨rfl, fun k => ⟨_, rfl⟩⟩

end

/-! ## Examples -/

/-- A request, in the usual case and in another one. -/
def usualCase : List Bytes := [ascii "POST /c HTTP/1.1\r\nHost: x\r\nTransfer-Encoding: chunked\r\nX-A: b\r\n\r\n", ascii "3\r\nabc\r\n0\r\n\r\n"]
def otherCase : List Bytes := [ascii "POST /c HTTP/1.1\r\nHOST: x\r\ntransfer-ENCODING: ChunkED\r\nx-a:  b\r\n", ascii "\r\n"]
def usualFields : List (Bytes × Bytes) := [(ascii "Host", ascii "x"), (ascii "Transfer-Encoding", ascii "chunked"), (ascii "X-A", ascii "b")]
def otherFields : List (Bytes × Bytes) := [(ascii "HOST", ascii "x"), (ascii "transfer-ENCODING", ascii "ChunkED"), (ascii "x-a", ascii "b")]

theorem same_fields : Recased [ascii "transfer-encoding"] usualFields otherFields := by
  refine .cons ⟨?_, .inl rfl⟩ (.cons ⟨?_, .inr ⟨⟨_, List.mem_cons_self .., ?_⟩, ?_⟩⟩ (.cons ⟨?_, .inl rfl⟩ .nil)) <;> (show List.map _ _ = List.map _ _; decide)

/-- The hypotheses of `C80_server_partial` are met, and this is what is observed. -/
example : FirstHead (rem (connOf usualCase).rd) (usualCase.flatten.take 65) ∧ FirstHead (rem (connOf otherCase).rd) otherCase.flatten ∧
    HasHead (usualCase.flatten.take 65) (ascii "POST") (ascii "/c") 1 usualFields ∧ HasHead otherCase.flatten (ascii "POST") (ascii "/c") 1 otherFields ∧
    ((observed (reading []) (connOf usualCase)).bind fun x => .ret (upToCall x.1)) =
      .ret [.call ⟨ascii "POST", ascii "/c", [(ascii "host", [ascii "x"]), (ascii "transfer-encoding", [ascii "chunked"]), (ascii "x-a", [ascii "b"])]⟩ none] ∧
    ((observed (reading []) (connOf otherCase)).bind fun x => .ret (upToCall x.1)) =
      .ret [.call ⟨ascii "POST", ascii "/c", [(ascii "host", [ascii "x"]), (ascii "transfer-encoding", [ascii "ChunkED"]), (ascii "x-a", [ascii "b"])]⟩ none] := by
  refine ⟨by show FirstHead (Script.bytes _) _; decide +kernel, by show FirstHead (Script.bytes _) _; decide +kernel, hasHead_of (rest := []) (by decide +kernel), hasHead_of (rest := []) (by decide +kernel),
    by decide +kernel, by decide +kernel⟩

/-- The hypotheses of `C80_client_partial`, and of `C80_refuted_client`: three bytes are lost. -/
example : replySeen [ascii "HTTP/1.1 404 N\r\nX-A: 1\r\nContent-Length: 2\r\n\r\nab"] [5] =
      .ret (some (404, [(ascii "x-a", [ascii "1"]), (ascii "content-length", [ascii "2"]), (ascii "date", [ascii "NOW"])], some 2, [.data (ascii "ab")])) ∧
    replySeen [ascii "HTTP/1.1 404 N\r\nx-A: 1\r\nCONTENT-length: 2\r\n\r\nab"] [5] =
      .ret (some (404, [(ascii "x-a", [ascii "1"]), (ascii "content-length", [ascii "2"]), (ascii "date", [ascii "NOW"])], some 2, [.data (ascii "ab")])) ∧
    replySeen [ascii "HTTP/1.1 200 OK\r\nTransfer-Encoding: Chunked\r\n\r\n3\r\nabc\r\n0\r\n\r\n"] [5] =
      .ret (some (200, [(ascii "transfer-encoding", [ascii "Chunked"]), (ascii "date", [ascii "NOW"])], some 0, [.data []])) := by
  refine ⟨?_, ?_, ?_⟩ <;> decide +kernel

/-- **C80 is false of the server** for Expect: the client waits for an interim response, and it does not come. -/
theorem C80_refuted_expect : ∃ (h h' : Bytes) (fs gs : List (Bytes × Bytes)), HasHead h (ascii "POST") (ascii "/p") 1 fs ∧ HasHead h' (ascii "POST") (ascii "/p") 1 gs ∧ Recased [ascii "expect"] fs gs ∧
    Judged demoEnv.uriOk h (.serve true (ascii "POST") (ascii "/p") fs (some 5)) ∧ Judged demoEnv.uriOk h' (.serve false (ascii "POST") (ascii "/p") gs (some 5)) ∧
    ((observed (reading []) (connOf [h])).bind fun x => .ret (x.1.head?)) = .ret (some (.wrote continueResponse)) ∧
    ((observed (reading []) (connOf [h'])).bind fun x => .ret (x.1.head?)) =
      .ret (some (.call ⟨ascii "POST", ascii "/p", [(ascii "host", [ascii "x"]), (ascii "content-length", [ascii "5"]), (ascii "expect", [ascii "100-Continue"])]⟩ (some 5))) := by
  have hg : ∀ v, ∀ f ∈ [(ascii "Host", ascii "x"), (ascii "Content-Length", ascii "5"), (ascii "Expect", v)], GoodField f := by
    intro v f hf
    simp only [List.mem_cons, List.not_mem_nil, or_false] at hf
    rcases hf with rfl | rfl | rfl
    · exact ⟨fun h => absurd h.1 (by decide), fun h => absurd h.1 (by decide)⟩
    · exact ⟨fun h => h.2 5 ((parseUsize_some _ 5).1 (by decide +kernel)), fun h => absurd h.1 (by decide)⟩
    · exact ⟨fun h => absurd h.1 (show ¬ lower (ascii "Expect") = _ by decide), fun h => absurd h.1 (show ¬ lower (ascii "Expect") = _ by decide)⟩
  refine ⟨postHead, ascii "POST /p HTTP/1.1\r\nHost: x\r\nContent-Length: 5\r\nExpect: 100-Continue\r\n\r\n", postFields,
    [(ascii "Host", ascii "x"), (ascii "Content-Length", ascii "5"), (ascii "Expect", ascii "100-Continue")], post_head, hasHead_of (rest := []) (by decide +kernel), ?_, ?_, ?_, by decide +kernel, by decide +kernel⟩
  · exact .cons ⟨rfl, .inl rfl⟩ (.cons ⟨rfl, .inl rfl⟩ (.cons ⟨rfl, .inr ⟨⟨_, List.mem_cons_self .., by show List.map _ _ = List.map _ _; decide⟩, by show List.map _ _ = List.map _ _; decide⟩⟩ .nil))
  · exact .serve post_head (by decide) (hg _) (by decide) (by decide) ⟨5, (parseUsize_some _ 5).1 (by decide +kernel), rfl⟩
  · exact .serve (fs := [(ascii "Host", ascii "x"), (ascii "Content-Length", ascii "5"), (ascii "Expect", ascii "100-Continue")]) (hasHead_of (rest := []) (by decide +kernel)) (by decide) (hg _) (by decide) (by decide)
      ⟨5, (parseUsize_some _ 5).1 (by decide +kernel), rfl⟩

end Tophat
