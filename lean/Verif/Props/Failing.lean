import Verif.Proofs.HeadSize
import Verif.Props.Glitch
/-!
# Property C91: errors reach the client
-/

set_option linter.unusedSectionVars false
set_option synthInstance.maxSize 1000

namespace Tophat
open Spec

/-- An error whose response arrives as it is sent: version 1.1 (or none, which is the same), a status and headers that the `http` crate can represent, no header value that begins with a blank, and at most 124 header
fields, which take, with the clock's date, at most 7900 bytes. -/
structure Glitch.Transmittable (g : Glitch) (now : Bytes) : Prop where
  ok : g.Ok
  version : g.version = none ∨ g.version = some .http11
  status : ∀ st, g.status = some st → 100 ≤ st ∧ st < 1000
  valid : (g.headers.getD []).Valid
  blanks : ∀ f ∈ (g.headers.getD []).iter, ∀ b, f.2.head? = some b → b ≠ 32 ∧ b ≠ 9
  clock : (∀ b ∈ now, valueByte b) ∧ ∀ b, now.head? = some b → b ≠ 32 ∧ b ≠ 9
  fields : (g.headers.getD []).iter.length ≤ 124
  small : (renderFields (g.headers.getD []).iter).length + now.length ≤ 7900

theorem Glitch.Transmittable.response {g : Glitch} {now : Bytes} (t : g.Transmittable now) (v : Bool) : Tophat.Transmittable (g.intoInnerResponse v) now := by
  have hm := glitch_memory t.ok v
  have hlen : (g.intoInnerResponse v).length = some (g.bodyText v).length := rfl
  have hlim : (g.bodyText v).length < 2 ^ 64 := by have h := hm.limit; have e : usizeLimit = 2 ^ 64 := rfl; have : (g.intoInnerResponse v).body.left = g.bodyText v := rfl; rw [this] at h; omega
  have hst : 100 ≤ (g.intoInnerResponse v).status ∧ (g.intoInnerResponse v).status < 1000 := by
    show 100 ≤ g.status.getD 500 ∧ g.status.getD 500 < 1000
    cases hs : g.status with
    | none => decide
    | some st => exact t.status st hs
  have hv : (g.intoInnerResponse v).version = .http11 := by
    show g.version.getD .http11 = _
    rcases t.version with h | h <;> rw [h] <;> rfl
  have hvalid : (g.intoInnerResponse v).headers.Valid := glitch_valid t.ok.1 (fun hs h => by have := t.valid; rw [h] at this; exact this)
  have hsz : (g.intoInnerResponse v).headers.iter.length ≤ (g.headers.getD []).iter.length + 1 ∧
      (renderFields (g.intoInnerResponse v).headers.iter).length ≤ (renderFields (g.headers.getD []).iter).length + 26 := by
    have hi := insert_size (g.headers.getD []) H.contentType (ascii "text/plain")
    have e : H.contentType.length + (ascii "text/plain").length + 4 = 26 := by decide
    rw [e] at hi
    unfold Glitch.intoInnerResponse
    dsimp only
    split
    · exact hi
    · omega
  refine ⟨hv, hst, hm.wf, hvalid, ?_, t.clock, ?_, ?_⟩
  · rintro ⟨k, x⟩ hf b hb
    have h1 := mem_iter.1 hf
    rw [(glitch_headers t.ok.1 v).2 k] at h1
    split at h1
    · simp only [List.mem_singleton] at h1
      subst h1
      have e : (ascii "text/plain").head? = some 116 := by decide
      have hb' : (ascii "text/plain").head? = some b := hb
      rw [e] at hb'; injection hb' with hb'; subst hb'; decide
    · exact t.blanks _ (mem_iter.2 h1) b hb
  · have := (sentFields_size (g.intoInnerResponse v).headers hlim now).1
    have := t.fields
    rw [hlen]
    omega
  · have := headOf_size hlen hlim hv hst now
    have := t.small
    omega

section
variable {α : Type} [AsyncBufRead α] [LawfulBufRead α] {β : Type} [AsyncBufRead β] [LawfulBufRead β] {ρ : Type} [AsyncRead ρ] [LawfulRead ρ] {τ : Type} [AsyncRead τ] [LawfulRead τ]

/-- **C91.**  A tophat client connected to a tophat server: if the endpoint, having read as much of the body as it likes, returns an error `g` and has not sent anything, `connect` returns the error's status (500 if it has none),
its headers, the content type `text/plain` if it has a body, and the body: its message and, if the server is verbose, the text of the error it was made from. -/
theorem C91_endpoint {env : Env} (hx : HexLenOk env.hexLen) {opts : ServerOpts} {endpoint : Endpoint β} {req : ClientRequest α} {t : Bytes} {fs : List (Bytes × Bytes)}
    (hr : Requestable env.uriOk req t fs) (hexp : Expects fs = false) {n : Nat} {g : Glitch} (hg : g.Transmittable (env.now n))
    -- the client, and its connection `io`, `w`; it has written its request, and waits long enough for the response
    {now : Bytes} {pool : Pool} (hp : pool.Ok) {cfuel cfuel' : Nat} {w w' : Writer} (hw : w.got = [])
    (hsent : clientSend cfuel req w = .ret (w', .sent)) {io : τ} (hcf : 2 * (rem io).length + meas io < cfuel')
    -- the server, its connection `c`, and what it did
    {sfuel : Nat} {c c' : Conn ρ} (hgot : c.wr.got = []) (hrel : c.wr.Reliable) (ht : NoTimeout opts c) {ev : List Event} {res : Option AcceptRes}
    (hs : acceptStep env opts endpoint sfuel n c = .ret (c', ev, res))
    (he : ∀ hmap, MapOf hmap fs → .call ⟨req.method, t, hmap⟩ (some (rem req.body).length) ∈ ev → (endpoint ⟨req.method, t, hmap⟩ (some (rem req.body).length)).afterReads (bodyReads ev) = some (.glitch g))
    -- the connection carries bytes both ways, in any fragments
    {x y : Bytes} (hup : rem c.rd = w'.got ++ x) (hdown : rem io = c'.wr.got ++ y) :
    let body := glitchBody opts.verboseGlitch g.message g.trace
    res = none ∧ ∃ rsp hs, connect now pool cfuel cfuel' req io w = .ret (w', .done (.ok rsp)) ∧ rsp.status = g.status.getD 500 ∧ GlitchHeaders (g.headers.getD []) body hs ∧
      MapOf rsp.headers (sentFields hs (some body.length) (env.now n)) ∧ rsp.length = some body.length ∧
      ∀ ks, ∃ b ps, polls rsp.body ks = .ret (b, ps) ∧ received ps <+: body ∧ (∀ x, .err x ∉ ps) ∧
        ((∀ k ∈ ks, 0 < k) → SawEof ps → received ps = body) ∧ ((∀ k ∈ ks, 0 < k) → body.length + meas io < ks.length → SawEof ps) := by
  have hrem : rem c.rd = renderRequest req.method t fs ++ (rem req.body ++ x) := by rw [hup, hr.postable.written hw hsent]; simp
  have hfirst : FirstHead (rem c.rd) (renderRequest req.method t fs) := by rw [hrem]; exact firstHead_render hr.method.2 hr.targetOk.1 hr.plain _
  have hhas := hasHead_render hr.method.2 hr.targetOk.1 hr.plain hr.few
  obtain ⟨-, v1, v2, v3⟩ := hr.values []
  have hlen : BodyLength fs (some (rem req.body).length) :=
    ((C25_lengths fs).2.1 [] _ _ v2 (by rw [v1]; rfl) (isLength_decimal hr.body.2) _).2 rfl
  obtain ⟨r0, hmap, hsv⟩ := served_inv (acceptStep_spec hx hs) hfirst (.serve hhas hr.method.1 hr.good v3 hr.targetOk.2 hlen) (fun _ => hrel) ht
  obtain ⟨used', body, body', w1, w2, ev1, gl, ev2, a1, a2, a3, a4, a5, a6, a7⟩ := hsv.run
  have he := he hmap hsv.headers (by rw [a7]; simp)
  have hr1 : w1.Reliable := hrel.suffix a2
  have hw1 : w1.got = [] := by rw [a1, hgot, hexp]; rfl
  have e2 : bodyReads ev2 = [] := by
    unfold answerGlitch at a5
    split at a5
    · simp only [Run.ret.injEq, Prod.mk.injEq] at a5; rw [← a5.2]; rfl
    · obtain ⟨⟨w3, r⟩, _, h2⟩ := Run.bind_eq_ret.1 a5
      simp only [Run.ret.injEq, Prod.mk.injEq] at h2; rw [← h2.2]; rfl
  have e3 : bodyReads ev = bodyReads ev1 := by
    rw [a7, bodyReads_append]
    have : bodyReads (Spec.interim (Expects fs)) = [] := by cases Expects fs <;> rfl
    rw [this, List.nil_append]
    show bodyReads (ev1 ++ ev2) = _
    rw [bodyReads_append, e2, List.append_nil]
  rw [e3] at he
  obtain ⟨rfl, rfl, -⟩ := runProg_glitch _ _ _ _ _ _ _ a4 he
  simp only [answerGlitch] at a5
  obtain ⟨⟨w3, r⟩, h1, h2⟩ := Run.bind_eq_ret.1 a5
  simp only [Run.ret.injEq, Prod.mk.injEq] at h2
  obtain ⟨rfl, rfl⟩ := h2
  have hm := glitch_memory hg.ok opts.verboseGlitch
  have tr := hg.response opts.verboseGlitch
  have hl : (g.intoInnerResponse opts.verboseGlitch).length = some (glitchBody opts.verboseGlitch g.message g.trace).length := by rw [← glitchBody_eq]; rfl
  have hb : rem (g.intoInnerResponse opts.verboseGlitch).body = glitchBody opts.verboseGlitch g.message g.trace := by rw [← glitchBody_eq]; rfl
  have hlim : 8192 + (glitchBody opts.verboseGlitch g.message g.trace).length < usizeLimit := by rw [← glitchBody_eq]; exact hm.limit
  obtain ⟨amt, msg, rfl, -⟩ := sendFully_whole hx hm.wf rfl (fun k hk => by rw [hl] at hk; injection hk with hk; omega) hr1 h1
  unfold sendFully at h1
  obtain ⟨⟨w4, r4⟩, h5, h6⟩ := Run.bind_eq_ret.1 h1
  dsimp only at h6
  split at h6
  · cases h6
  · simp only [Run.ret.injEq, Prod.mk.injEq] at h6
    obtain ⟨rfl, rfl⟩ := h6
    obtain ⟨rsp, q1, q2, q3, -, q5, q6⟩ := C55_round_trip hx tr hl hlim hw1 h5 hdown now hp hcf
    refine ⟨r0, rsp, _, ?_, q2, glitch_headers hg.ok.1 opts.verboseGlitch, q3, q5, ?_⟩
    · unfold connect
      rw [hsent]
      simp only [Run.ret_bind]
      rw [q1]
      rfl
    · rw [hb, List.take_length] at q6
      exact q6

/-- **C91**, for requests that do not reach the endpoint: whatever the client has sent, if the server refuses it with the status `st` (400 or 505, C22 to C24) and without an interim response, the client
gets a response with this status and an empty body. -/
theorem C91_refused {env : Env} (hx : HexLenOk env.hexLen) {opts : ServerOpts} {endpoint : Endpoint β} {sfuel n : Nat} {c c' : Conn ρ} {ev : List Event} {res : Option AcceptRes} {h : Bytes} {st : Nat}
    (hh : FirstHead (rem c.rd) h) (hj : Judged env.uriOk h (.refuse false st)) (hgot : c.wr.got = []) (hrel : c.wr.Reliable) (ht : NoTimeout opts c)
    (hs : acceptStep env opts endpoint sfuel n c = .ret (c', ev, res))
    (hclock : (∀ b ∈ env.now n, valueByte b) ∧ ∀ b, (env.now n).head? = some b → b ≠ 32 ∧ b ≠ 9) (hsmall : (env.now n).length ≤ 7900)
    {io : τ} {y : Bytes} (hdown : rem io = c'.wr.got ++ y) (now : Bytes) {pool : Pool} (hp : pool.Ok) {cfuel : Nat} (hcf : 2 * (rem io).length + meas io < cfuel) :
    calls ev = [] ∧ ∃ rsp, ClientDecode.decode now pool cfuel io = .ret (.done (.ok rsp)) ∧ rsp.status = st ∧
      MapOf rsp.headers [(ascii "content-length", ascii "0"), (ascii "date", env.now n)] ∧ rsp.length = some 0 ∧
      ∀ ks, ∃ b ps, polls rsp.body ks = .ret (b, ps) ∧ received ps = [] ∧ ∀ x, .err x ∉ ps := by
  have hst : st = 400 ∨ st = 505 := by
    generalize hv : Verdict.refuse false st = v at hj
    cases hj <;> simp_all
  have hst' : 100 ≤ st ∧ st < 1000 := by omega
  obtain ⟨-, g1, g2⟩ := refused_inv (acceptStep_spec hx hs) hh hj hrel ht
  rw [hgot, List.nil_append] at g2
  have hsz : (errorResponse st (env.now n)).length < 8192 := by
    have := headOf_size (resp := (⟨st, [], .http11, ⟨[]⟩, some 0⟩ : InnerResponse Cursor)) rfl (by decide) rfl hst' (env.now n)
    have e : (headOf (⟨st, [], .http11, ⟨[]⟩, some 0⟩ : InnerResponse Cursor) (env.now n)) = errorResponse st (env.now n) := rfl
    rw [e] at this
    simp only [HeaderMap.iter, List.flatMap_nil, renderFields, List.length_nil] at this
    omega
  obtain ⟨rsp, q1, q2, q3, -, q5, q6⟩ := (refusal_ok hst' hclock hsz).arrives rfl (by decide) (Nat.zero_le _) (io := io) (more := y) (by rw [hdown, g2]; rfl) now hp hcf
  refine ⟨by rw [g1]; rfl, rsp, q1, q2, q3, q5, fun ks => ?_⟩
  obtain ⟨b, ps, e1, e2, e3, -⟩ := q6 ks
  exact ⟨b, ps, e1, by simpa using e2, e3⟩

end

/-! ## Concrete cases -/

/-- An error with a status, a header, a message and the text of an error. -/
def demoGlitch : Glitch := ⟨some 409, some [(ascii "x-why", [ascii "because"])], none, some (ascii "busy"), some (ascii "lock")⟩

/-- It meets the hypothesis of `C91_endpoint`. -/
theorem demoGlitch_ok : demoGlitch.Transmittable (ascii "NOW") := by
  have hp : (demoGlitch.headers.getD []).plain = true := by decide +kernel
  refine ⟨⟨?_, by decide⟩, .inl rfl, ?_, (HeaderMap.plain_ok hp).1, (HeaderMap.plain_ok hp).2, nowOk, by decide, by decide⟩
  · intro hs h; injection h with h; subst h; exact ⟨by decide, by decide⟩
  · intro st h; injection h with h; subst h; decide

/-- The endpoint reads a part of the body, and returns it. -/
example : exchange demoRequest (fun _ _ => .read 3 fun _ => .glitch demoGlitch) = .ret (
    [.call ⟨ascii "POST", ascii "/a?q=1", [(ascii "host", [ascii "h.org:81"]), (ascii "content-length", [ascii "5"]), (ascii "x-a", [ascii "1", ascii "2"])]⟩ (some 5), .got 3 (.data (ascii "he")),
      .wrote (responseHead .http11 409 [(ascii "x-why", [ascii "because"]), (ascii "content-type", [ascii "text/plain"])] (some 4) (ascii "NOW") ++ ascii "busy")],
    some (409, [(ascii "content-length", [ascii "4"]), (ascii "date", [ascii "NOW"]), (ascii "x-why", [ascii "because"]), (ascii "content-type", [ascii "text/plain"])], some 4,
      [.data (ascii "b"), .pending, .data (ascii "usy"), .data []])) := by decide +kernel

end Tophat
