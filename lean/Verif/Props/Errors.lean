import Verif.Model.Errors
import Verif.Spec.Errors
import Verif.Props.ClientEncode
import Verif.Props.ClientDecode
import Verif.Props.Glitch
import Verif.Props.Body
/-!
# Property C78: what errors say

`connect` returns a `ClientErr`; `e.toError ioText lib` is the `ClientError` that the application gets, `display` the text it prints and `source` its cause.  `ioText` gives the texts of the errors of the
connection, `lib` is the text of an error of a library (httparse, http).
-/

set_option linter.unusedSectionVars false
set_option synthInstance.maxSize 1000

namespace Tophat
open Spec

/-- The text that a `ClientErr` prints. -/
def ClientErr.text (ioText : IoErr → Bytes) (lib : Bytes) (e : ClientErr) : Bytes := (e.toError ioText lib).display

section
variable {ρ : Type} [AsyncRead ρ] [LawfulRead ρ] {σ : Type} [AsyncBufRead σ] [LawfulBufRead σ]

/-! ## The client -/

theorem encode_err {req : ClientRequest σ} {e : ClientErr} (h : ClientEncoder.encode req = .ret (.err e)) : e = .encode "Missing hostname" ∨ e = .encode "Missing port" := by
  unfold ClientEncoder.encode at h
  split at h
  · rename_i e' ht
    simp only [Run.ret.injEq, ClientRes.err.injEq] at h
    subst h
    unfold ClientEncoder.target at ht
    repeat' split at ht
    all_goals first | cases ht; exact .inl rfl | cases ht; exact .inr rfl | cases ht
  · split at h
    · rename_i e' ht
      simp only [Run.ret.injEq, ClientRes.err.injEq] at h
      subst h
      unfold ClientEncoder.hostLine at ht
      split at ht
      · cases ht
      · split at ht
        · rename_i e'' ht'
          cases ht
          unfold ClientEncoder.hostValue at ht'
          repeat' split at ht'
          all_goals first | cases ht'; exact .inl rfl | cases ht'
        · cases ht
    · split at h <;> cases h

theorem parseHead_err {h : Bytes} {e : ClientErr} (hp : ClientDecode.parseHead h = .err e) :
    e = .decodeErr ∨ (e = .decode "Malformed HTTP head" ∧ ∀ v code fs, ¬ HasReply h v code fs) ∨ (e = .decode "Unsupported HTTP version" ∧ ∃ v code fs, HasReply h v code fs ∧ v ≠ 1) := by
  unfold ClientDecode.parseHead at hp
  have e128 : ClientDecode.maxHeaders = 128 := rfl
  rw [e128] at hp
  cases hq : Httparse.parseResponse 128 h with
  | err x => rw [hq] at hp; cases hp; exact .inl rfl
  | part =>
    rw [hq] at hp; cases hp
    refine .inr (.inl ⟨rfl, fun v c fs hh => ?_⟩)
    obtain ⟨r, h1⟩ := (hasReply_iff _ _ _ _).1 hh
    rw [hq] at h1; cases h1
  | ok rest res =>
    obtain ⟨v, c, fs⟩ := res
    have hh : HasReply h v c fs := (hasReply_iff _ _ _ _).2 ⟨rest, hq⟩
    rw [hq] at hp
    dsimp only at hp
    by_cases hv : v = 1
    · rw [if_pos hv] at hp
      subst hv
      obtain ⟨m, h1, h2⟩ := clientLoop_spec [] fs [] ⟨HeaderMap.wf_nil, by simp⟩ hh.raw
      rw [h1] at hp; cases hp
    · rw [if_neg hv] at hp
      cases hp
      exact .inr (.inr ⟨rfl, v, c, fs, hh, hv⟩)

theorem finish_err {now : Bytes} {pool : Pool} {r : BufRd ρ} {code : Nat} {m : HeaderMap} {fs : List (Bytes × Bytes)} {e : ClientErr} (hm : MapOf m fs)
    (hf : ClientDecode.finish now pool r code m = .err e) : e = .decodeErr ∨ (e = .decode "Unexpected Content-Length header" ∧ Ambiguous fs) := by
  have hmd := addDate_spec hm now
  unfold ClientDecode.finish at hf
  dsimp only at hf
  have hcl : (ClientDecode.addDate m now).get H.contentLength = (valuesOf (ascii "content-length") fs).head? := by
    show (HeaderMap.getAll _ _).head? = _
    rw [hmd.values, valuesOf_withDate _ _ _ (by decide)]; rfl
  have hte : (ClientDecode.addDate m now).get H.transferEncoding = (valuesOf (ascii "transfer-encoding") fs).head? := by
    show (HeaderMap.getAll _ _).head? = _
    rw [hmd.values, valuesOf_withDate _ _ _ (by decide)]; rfl
  rw [hcl, hte] at hf
  have hnil : ∀ l : List Bytes, l.head? ≠ none ↔ l ≠ [] := by intro l; rw [ne_eq, List.head?_eq_none_iff]
  split at hf
  · rename_i ha
    cases hf
    exact .inr ⟨rfl, (hnil _).1 ha.1, (hnil _).1 ha.2⟩
  · refine .inl ?_
    have hs : ∀ (m : HeaderMap) (b : ReplyBody ρ) (l : Option Nat), ClientDecode.setHead code m b l = .err e → e = .decodeErr := by
      intro m b l hx
      unfold ClientDecode.setHead at hx
      split at hx <;> cases hx
      rfl
    split at hf
    · cases hf
    · split at hf
      · split at hf
        · cases hf; rfl
        · exact hs _ _ _ hf
      · exact hs _ _ _ hf

/-- What `decode` says of a bad response. -/
theorem decode_told {now : Bytes} {pool : Pool} {fuel : Nat} {io : ρ} {e : ClientErr} (h : ClientDecode.decode now pool fuel io = .ret (.done (.err e))) (ioText : IoErr → Bytes) (lib : Bytes) :
    SaysWrong ioText (rem io) (fin io) (e.text ioText lib) := by
  obtain ⟨hd, h1, h2⟩ := clientHeadGo_spec fuel (BufRd.new io) [] [] 0 (by simpa using noReply_nil) (by decide) (by simp) rfl
  unfold ClientDecode.decode at h
  rw [List.append_nil] at h1 h2
  rw [h1] at h
  simp only [Run.ret_bind] at h
  have e1 : rem (BufRd.new io) = rem io := rfl
  have e2 : fin (BufRd.new io) = fin io := rfl
  rw [List.nil_append, e1, e2] at h2
  cases h2 with
  | running a b c d f => cases h
  | lost a b => cases h; exact .lost a b
  | empty a b => cases h; exact .closed a b
  | long a b c => cases h; exact .long (Nat.le_trans b a.length_le) c
  | head a b c d f =>
    rename_i r buf
    dsimp only at h
    rcases clientParseHead_spec buf with ⟨e', g1, g2⟩ | ⟨code, m, fs, g1, g2, g3⟩
    · rw [g1] at h
      cases h
      rcases parseHead_err g1 with rfl | ⟨rfl, k⟩ | ⟨rfl, v, code, fs, k1, k2⟩
      · exact .rejected lib a f g2
      · exact .malformed a f k
      · exact .version a f k1 k2
    · rw [g1] at h
      simp only [Run.ret.injEq, ClientDecode.Res.done.injEq] at h
      rcases finish_err g3 h with rfl | ⟨rfl, k⟩
      · rcases clientFinish_spec now pool r g2 g3 with ⟨e', k1, k2⟩ | ⟨v, res, k1, k2, k3⟩
        · exact .rejected lib a f k2
        · rw [h] at k1; cases k1
      · exact .ambiguous a f g2 k

theorem told_phase {ioText : IoErr → Bytes} {s : Bytes} {fin : Option IoErr} {t : Bytes} (h : SaysWrong ioText s fin t) : phaseOf t = .awaiting := by
  have h1 : ∀ x, ascii "None: " ++ x ∉ unaddressedTexts := by
    intro x hx
    simp only [unaddressedTexts, message, List.mem_cons, List.not_mem_nil, or_false] at hx
    rcases hx with hx | hx <;> exact absurd (congrArg (List.take 1) hx) (by simp [List.take_append, show ascii "None: " = 78 :: ascii "one: " from rfl, show ascii "Some(\"" = 83 :: ascii "ome(\"" from rfl])
  have h2 : ∀ x, (ascii "None: " ++ x).take 10 ≠ ascii "Io Error: " := by
    intro x hx
    exact absurd (congrArg (List.take 1) hx) (by simp [show ascii "None: " = 78 :: ascii "one: " from rfl, show ascii "Io Error: " = 73 :: ascii "o Error: " from rfl])
  unfold phaseOf
  cases h with
  | lost => rw [if_neg (h1 _), if_neg (h2 _)]
  | rejected => rw [if_neg (h1 _), if_neg (h2 _)]
  | _ => decide

/-- **C78.**  What the text of an error of `connect` says.  If it is one of the two messages about the address, nothing of the request was written.  If it begins with `Io Error: `, the request was being
written, and the rest of the text is that of the error that the transport or the body of the request reported (or that of "write zero", if the transport took no bytes).  Otherwise the whole request was
written, and the text says what is wrong with what the peer sent: `SaysWrong`. -/
theorem C78_connect {now : Bytes} {pool : Pool} {fuel fuel' : Nat} {req : ClientRequest σ} {io : ρ} {w w' : Writer} {e : ClientErr} (h : connect now pool fuel fuel' req io w = .ret (w', .done (.err e)))
    (ioText : IoErr → Bytes) (lib : Bytes) :
    match phaseOf (e.text ioText lib) with
    | .unsent => w' = w ∧ ¬ Addressed req
    | .sending => ∃ H sent used x, headOfRequest req = some H ∧ w'.got = w.got ++ sent ∧ sent <+: H ++ rem req.body ∧ w.script = used ++ w'.script ∧ e.text ioText lib = ascii "Io Error: " ++ ioText x ∧
        (fin req.body = some x ∨ (∃ pre, used = pre ++ [.err x]) ∨ (x = .writeZero ∧ ∃ pre, used = pre ++ [.accept 0]))
    | .awaiting => ∃ H, headOfRequest req = some H ∧ w'.got = w.got ++ (H ++ rem req.body) ∧ SaysWrong ioText (rem io) (fin io) (e.text ioText lib) := by
  have hs := clientSend_spec req fuel w
  unfold connect at h
  obtain ⟨⟨w1, r1⟩, h1, h⟩ := Run.bind_eq_ret.1 h
  cases hH : headOfRequest req with
  | none =>
    rw [hH] at hs
    rcases hs with ⟨⟨msg, hs⟩, hna⟩ | ⟨hs, -⟩
    · have hs' := hs
      rw [hs] at h1
      simp only [Run.ret.injEq, Prod.mk.injEq] at h1
      obtain ⟨rfl, rfl⟩ := h1
      simp only [Run.ret.injEq, Prod.mk.injEq, ConnectRes.done.injEq, ClientRes.err.injEq] at h
      obtain ⟨rfl, rfl⟩ := h
      have hm : (ClientErr.encode msg) = .encode "Missing hostname" ∨ (ClientErr.encode msg) = .encode "Missing port" := by
        unfold clientSend at hs'
        obtain ⟨x, k1, k2⟩ := Run.bind_eq_ret.1 hs'
        cases x with
        | err e => cases k2; exact encode_err k1
        | ok enc =>
          obtain ⟨⟨s, r⟩, k3, k4⟩ := Run.bind_eq_ret.1 k2
          cases r <;> cases k4
      rcases hm with hm | hm
      · rw [hm]; exact ⟨rfl, hna⟩
      · rw [hm]; exact ⟨rfl, hna⟩
    · rw [hs] at h1; cases h1
  | some H =>
    rw [hH] at hs
    obtain ⟨w2, r2, sent, used, g1, g2, g3, g4, g5⟩ := hs
    rw [g1] at h1
    simp only [Run.ret.injEq, Prod.mk.injEq] at h1
    obtain ⟨rfl, rfl⟩ := h1
    cases r2 with
    | writing => cases h
    | failed e' =>
      simp only [Run.ret.injEq, Prod.mk.injEq, ConnectRes.done.injEq, ClientRes.err.injEq] at h
      obtain ⟨rfl, rfl⟩ := h
      obtain ⟨x, rfl, hx⟩ := g5
      have ht : (ClientErr.io x).text ioText lib = ascii "Io Error: " ++ ioText x := rfl
      have hp : phaseOf ((ClientErr.io x).text ioText lib) = .sending := by
        rw [ht]
        unfold phaseOf
        rw [if_neg, if_pos]
        · simp [show ascii "Io Error: " = [73, 111, 32, 69, 114, 114, 111, 114, 58, 32] from rfl]
        · intro hx
          simp only [unaddressedTexts, message, List.mem_cons, List.not_mem_nil, or_false] at hx
          rcases hx with hx | hx <;> exact absurd (congrArg (List.take 1) hx) (by simp [show ascii "Io Error: " = 73 :: ascii "o Error: " from rfl, show ascii "Some(\"" = 83 :: ascii "ome(\"" from rfl])
      rw [hp]
      exact ⟨H, sent, used, x, rfl, g2, g4, g3, ht, hx⟩
    | sent =>
      dsimp only at h
      obtain ⟨d, k1, k2⟩ := Run.bind_eq_ret.1 h
      cases d with
      | running buf => cases k2
      | done r =>
        simp only [Run.ret.injEq, Prod.mk.injEq, ConnectRes.done.injEq] at k2
        obtain ⟨rfl, rfl⟩ := k2
        have := decode_told k1 ioText lib
        rw [told_phase this]
        exact ⟨H, rfl, by rw [g2, g5.1], this⟩

/-- **C78.**  The text of an error of `connect` ends with the text of its cause, if it has one; and `source` gives one for exactly those that are caused by the connection, by the body of the request or by a
library. -/
theorem C78_cause (e : ClientErr) (ioText : IoErr → Bytes) (lib : Bytes) :
    (∀ c, (e.toError ioText lib).source = some c → ∃ front, e.text ioText lib = front ++ ascii ": " ++ c) ∧
    ((e.toError ioText lib).source = match e with
      | .encode _ | .decode _ => none
      | .decodeErr => some lib
      | .decodeIo x | .io x => some (ioText x)) := by
  refine ⟨fun c hc => ?_, by cases e <;> rfl⟩
  cases e with
  | encode m => cases hc
  | decode m => cases hc
  | decodeErr => cases hc; exact ⟨ascii "None", rfl⟩
  | decodeIo x => cases hc; exact ⟨ascii "None", rfl⟩
  | io x => cases hc; exact ⟨ascii "Io Error", by simp [ClientErr.text, ClientErr.toError, ClientError.ofIo, ClientError.display, show ascii "Io Error: " = ascii "Io Error" ++ ascii ": " from rfl]⟩

/-! ## Bodies -/

/-- **C78.**  If the conversion of a body fails, the text of the error is that of the error of the stream, or of "not UTF-8", behind `Error converting body: `, and `source` gives that error. -/
theorem C78_body {grow : Nat → Nat → Nat} (hg : GrowOk grow) {fuel : Nat} {r r' : ρ} {len : Option Nat} {x : BodyRes} {b : BodyError} (hl : len.getD 0 ≤ isizeMax) (hf : (rem r).length + meas r < fuel)
    (h : (MsgBody.fromReader r len).intoBytes grow fuel = .ret (r', x) ∨ (MsgBody.fromReader r len).intoString grow fuel = .ret (r', x)) (hb : x.error? = some b) (ioText : IoErr → Bytes) :
    ∃ e, b.source = some e ∧ b.display ioText = ascii "Error converting body: " ++ ioText e ∧ (fin r = some e ∨ fin r = none ∧ e = .notUtf8 ∧ ¬ IsUtf8 (rem r)) := by
  rcases h with h | h
  · obtain ⟨r1, x1, h1, h2⟩ := C56_reader hg len hf
    rw [h1] at h; cases h
    rcases h2 with ⟨-, rfl⟩ | ⟨e, h3, rfl⟩
    · cases hb
    · cases hb; exact ⟨e, rfl, rfl, .inl h3⟩
  · obtain ⟨r1, x1, h1, h2⟩ := C56_reader_text hg hl hf
    rw [h1] at h; cases h
    rcases h2 with ⟨-, -, rfl⟩ | ⟨h3, h4, rfl⟩ | ⟨e, h3, rfl⟩
    · cases hb
    · cases hb; exact ⟨_, rfl, rfl, .inr ⟨h3, rfl, h4⟩⟩
    · cases hb; exact ⟨e, rfl, rfl, .inl h3⟩

end

/-! ## Verbose error responses -/

section
variable {ρ : Type} [AsyncRead ρ] [LawfulRead ρ] {σ : Type} [AsyncBufRead σ]

/-- **C78.**  An endpoint that leaves with `?` on an error of a body or of `connect` answers, on a server with verbose Glitches and a transport that does not fail, with a response that has the text of that
error as its body; on one without, with an empty one. -/
theorem C78_verbose {env : Env} (hx : HexLenOk env.hexLen) {opts : ServerOpts} {endpoint : Endpoint σ} {fuel n : Nat} {c c' : Conn ρ} {ev : List Event} {res : Option AcceptRes}
    (hs : acceptStep env opts endpoint fuel n c = .ret (c', ev, res)) {head : ReqHead} {len : Option Nat} (hc : .call head len ∈ ev) {text : Bytes} (hm : 8192 + (1 + text.length) < usizeLimit)
    (hf : (endpoint head len).afterReads (bodyReads ev) = some (.glitch (.newWithErr text))) (hw : c.wr.Reliable) :
    let body := if opts.verboseGlitch then text else []
    ∃ i after hs, ev = interim i ++ .call head len :: after ∧ written after = responseHead .http11 500 hs (some body.length) (env.now n) ++ body := by
  have hg : (Glitch.newWithErr text).Ok := by
    refine ⟨by simp [Glitch.newWithErr], ?_⟩
    simpa [Glitch.newWithErr] using hm
  obtain ⟨-, i, after, hs', h1, h2, h3, h4⟩ := C34_response hx hs hc hg hf
  refine ⟨i, after, hs', h1, ?_⟩
  rw [h4 hw]
  have hb : glitchBody opts.verboseGlitch (Glitch.newWithErr text).message (Glitch.newWithErr text).trace = if opts.verboseGlitch then text else [] := by
    cases opts.verboseGlitch <;> rfl
  rw [hb]
  rfl

end

/-! ## Examples -/

/-- Texts of errors, for the examples. -/
def demoText : IoErr → Bytes
  | .transport _ => ascii "reset by peer"
  | _ => ascii "other"

/-- What was written, and the text of the error that `connect` returned. -/
def connectText (req : ClientRequest Script) (frags : List Bytes) (w : List WEv) : Option (Bytes × Bytes) :=
  match connect (ascii "NOW") zeroPool 40 40 req (replyOf frags) ⟨w, [], 0⟩ with
  | .ret (w, .done (.err e)) => some (w.got, e.text demoText (ascii "invalid status code"))
  | _ => none

/-- The three phases: the writing fails behind 50 bytes; there is no host to write to; the response is missing, has the wrong version, has a status that is none, is not one. -/
example : connectText demoRequest [] [.accept 50, .err (.transport 3)] = some (ascii "POST /a?q=1 HTTP/1.1\r\nhost: h.org:81\r\ncontent-leng", ascii "Io Error: reset by peer") ∧
    phaseOf (ascii "Io Error: reset by peer") = .sending := by decide +kernel
example : connectText demoRelative [] [] = some ([], message "Missing hostname") ∧ phaseOf (message "Missing hostname") = .unsent := by decide +kernel
example : (connectText demoRequest [] []).map (·.2) = some (message "Empty response") ∧ phaseOf (message "Empty response") = .awaiting := by decide +kernel
example : (connectText demoRequest [ascii "HTTP/1.0 200 OK\r\n\r\n"] []).map (·.2) = some (message "Unsupported HTTP version") := by decide +kernel
example : (connectText demoRequest [ascii "HTTP/1.1 099 OK\r\n\r\n"] []).map (·.2) = some (ascii "None: invalid status code") ∧ phaseOf (ascii "None: invalid status code") = .awaiting := by decide +kernel
example : (connectText demoRequest [ascii "\r\n\r\n"] []).map (·.2) = some (message "Malformed HTTP head") := by decide +kernel
/-- A body that is cut off by an error of the transport, and one that is not UTF-8. -/
example : ((MsgBody.fromReader ([.data (ascii "ab"), .err (.transport 1)] : Script) none).intoBytes (fun _ n => n + 32) 20 >>= fun x => .ret (x.2.error?.map (·.display demoText))) =
    .ret (some (ascii "Error converting body: reset by peer")) := by decide +kernel
example : ((MsgBody.fromReader ([.data [255]] : Script) none).intoString (fun _ n => n + 32) 20 >>= fun x => .ret (x.2.error?.map (·.display demoText))) =
    .ret (some (ascii "Error converting body: other")) := by decide +kernel
/-- `C78_verbose`: an endpoint that leaves with `?` on such an error. -/
example : (failing (BodyError.display demoText (.conversion (.transport 1))) ⟨[], [], []⟩ none).afterReads [(1, .err (.transport 1))] =
    some (.glitch (.newWithErr (ascii "Error converting body: reset by peer"))) := rfl

/-- Errors that `connect` never returns would be confused: `encode_io` and `decode_err` print the same. -/
theorem C78_latent (c : Bytes) : (ClientError.ofEncodeIo c).display = (ClientError.ofDecodeErr c).display := rfl

end Tophat
