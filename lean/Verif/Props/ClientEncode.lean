import Verif.Proofs.ClientEncode
import Verif.Proofs.HeadLines
import Verif.Spec.Client
/-!
# Properties C50, C51: the request that `client::connect` writes

`clientSend fuel req w` is the first part of `connect`: encoding the request and writing it, stopped after `fuel` steps of the copy loop, on a
transport `w` with arbitrary behaviour.  `rem req.body` is what the reader of the body yields and `fin req.body` how it ends.
-/

set_option linter.unusedSectionVars false

namespace Tophat
open Spec

section
variable {σ : Type} [AsyncBufRead σ] [LawfulBufRead σ]

theorem get_none_iff (m : HeaderMap) (k : Bytes) : m.get k = none ↔ m.getAll k = [] := by
  unfold HeaderMap.get; rw [List.head?_eq_none_iff]

theorem foldl_clientLine (l : List (Bytes × Bytes)) (b : Bytes) :
    l.foldl (fun b h => b ++ ClientEncoder.headerLine h) b = b ++ renderFields l := by
  induction l generalizing b with
  | nil => simp [renderFields]
  | cons h l ih =>
    rw [List.foldl_cons, ih]
    have e1 : ascii ": " = [58, 32] := rfl
    have e2 : crlf = [13, 10] := rfl
    simp only [renderFields, List.flatMap_cons, ClientEncoder.headerLine, e1, e2, List.append_assoc]

theorem renderFields_one (n v : Bytes) : renderFields [(n, v)] = n ++ ascii ": " ++ v ++ crlf := by
  simp [renderFields, ascii, crlf]

theorem target_spec (m : Bytes) (uri : ClientUri) :
    match targetOf m uri with
    | some t => ClientEncoder.target m uri = .ok t
    | none => ∃ msg, ClientEncoder.target m uri = .err (.encode msg) := by
  unfold targetOf ClientEncoder.target authority ClientEncoder.originForm
  by_cases hm : m = ascii "CONNECT"
  · rw [if_pos hm, if_pos hm]
    cases uri.port <;> cases uri.host <;> simp
  · rw [if_neg hm, if_neg hm]
    cases uri.query <;> simp

theorem hostLine_spec (hs : HeaderMap) (uri : ClientUri) :
    match (if hs.getAll (ascii "host") = [] then (authority uri).map fun a => [(ascii "host", a)] else some []) with
    | some fs => ClientEncoder.hostLine hs uri = .ok (renderFields fs)
    | none => ∃ msg, ClientEncoder.hostLine hs uri = .err (.encode msg) := by
  unfold ClientEncoder.hostLine ClientEncoder.hostValue authority
  by_cases hh : hs.getAll (ascii "host") = []
  · rw [if_pos hh]
    have : hs.get H.host = none := (get_none_iff _ _).2 hh
    rw [this]
    have e : ascii "host: " = ascii "host" ++ ascii ": " := by decide
    cases uri.host with
    | none => exact ⟨_, rfl⟩
    | some h =>
      cases uri.port with
      | none => simp only [Option.map_some, renderFields_one, e]
      | some p => simp only [Option.map_some, renderFields_one, e]
  · rw [if_neg hh]
    cases hg : hs.get H.host with
    | none => exact absurd ((get_none_iff _ _).1 hg) hh
    | some v => rfl

/-- What `encode` gives. -/
theorem encode_spec (req : ClientRequest σ) :
    match headOfRequest req with
    | some H => ClientEncoder.encode req =
        .ret (.ok { cursor := 0, headers := H, headersDone := false, body := req.body, bodyDone := false, bodyBytesRead := 0 })
    | none => (∃ msg, ClientEncoder.encode req = .ret (.err (.encode msg))) ∧ ¬ Addressed req ∨ ClientEncoder.encode req = .panic ∧ Addressed req ∧ req.length = none := by
  have ht := target_spec req.method req.uri
  have hh := hostLine_spec req.headers req.uri
  unfold headOfRequest fieldsOf ClientEncoder.encode
  cases h1 : targetOf req.method req.uri with
  | none =>
    rw [h1] at ht
    obtain ⟨msg, ht⟩ := ht
    rw [ht]
    refine .inl ⟨⟨msg, rfl⟩, ?_⟩
    rintro ⟨a1, a2⟩
    unfold targetOf authority at h1
    split at h1
    · rename_i hm
      cases hp : req.uri.port with
      | none => exact a2 hp hm
      | some p =>
        rw [hp] at h1
        cases hho : req.uri.host with
        | none => exact (a1 hho).1 hm
        | some h => rw [hho] at h1; simp at h1
    · cases h1
  | some t =>
    rw [h1] at ht
    dsimp only at ht
    rw [ht]
    dsimp only
    generalize hfd : (if req.headers.getAll (ascii "host") = [] then (authority req.uri).map fun a => [(ascii "host", a)] else some []) = fd at *
    cases fd with
    | none =>
      obtain ⟨msg, hh⟩ := hh
      rw [hh]
      have hna : ¬ Addressed req := by
        rintro ⟨a1, a2⟩
        split at hfd
        · rename_i he
          unfold authority at hfd
          cases hho : req.uri.host with
          | none => exact (a1 hho).2 he
          | some h => rw [hho] at hfd; simp at hfd
        · cases hfd
      cases req.length <;> exact .inl ⟨⟨msg, rfl⟩, hna⟩
    | some fs =>
      dsimp only at hh
      rw [hh]
      dsimp only
      cases hl : req.length with
      | none =>
        refine .inr ⟨rfl, ⟨?_, ?_⟩, rfl⟩
        · intro hho
          constructor
          · intro hm
            unfold targetOf authority at h1
            rw [if_pos hm, hho] at h1
            simp at h1
          · intro he
            unfold authority at hfd
            rw [if_pos he, hho] at hfd
            simp at hfd
        · intro hp hm
          unfold targetOf at h1
          rw [if_pos hm, if_pos hp] at h1
          cases h1
      | some n =>
        simp only [Option.map_some]
        congr 3
        rw [foldl_clientLine]
        have e1 : ascii "content-length: " = ascii "content-length" ++ ascii ": " := by decide
        have e2 : renderFields (if req.method = ascii "CONNECT" then [(ascii "proxy-connection", ascii "keep-alive")] else []) = ClientEncoder.proxyLine req.method := by
          unfold ClientEncoder.proxyLine
          split
          · decide
          · rfl
        unfold renderRequest
        have e3 : ascii "\r\n" = crlf := by decide
        simp only [renderFields_append, renderFields_one, e1, e2, e3, List.append_assoc]

/-- Everything about a run of the first part of `connect`. -/
theorem clientSend_spec (req : ClientRequest σ) (fuel : Nat) (w : Writer) :
    match headOfRequest req with
    | none => (∃ msg, clientSend fuel req w = .ret (w, .failed (.encode msg))) ∧ ¬ Addressed req ∨ clientSend fuel req w = .panic ∧ Addressed req ∧ req.length = none
    | some H => ∃ w' r sent used, clientSend fuel req w = .ret (w', r) ∧ w'.got = w.got ++ sent ∧ w.script = used ++ w'.script ∧ sent <+: H ++ rem req.body ∧
        match r with
        | .writing => fuel ≤ 2 * (H.length + (rem req.body).length + meas req.body) + w.script.length ∧ ∀ x, WEv.err x ∉ used
        | .sent => sent = H ++ rem req.body ∧ fin req.body = none ∧ ∀ x, WEv.err x ∉ used
        | .failed e => ∃ x, e = .io x ∧ (fin req.body = some x ∨ (∃ pre, used = pre ++ [.err x]) ∨ (x = .writeZero ∧ ∃ pre, used = pre ++ [.accept 0])) := by
  have he := encode_spec req
  cases hH : headOfRequest req with
  | none =>
    rw [hH] at he
    unfold clientSend
    rcases he with ⟨⟨msg, he⟩, hn⟩ | ⟨he, hn⟩
    · rw [he]; exact .inl ⟨⟨msg, rfl⟩, hn⟩
    · rw [he]; exact .inr ⟨rfl, hn⟩
  | some H =>
    rw [hH] at he
    dsimp only at he ⊢
    unfold clientSend
    rw [he]
    simp only [Run.ret_bind]
    have hI : ClientEncoder.Inv H req.body { cursor := 0, headers := H, headersDone := false, body := req.body, bodyDone := false, bodyBytesRead := 0 } [] := by
      refine ⟨rfl, Nat.zero_le _, rfl, fun _ => ⟨?_, rfl, rfl, rfl⟩, by simp⟩
      show 0 < H.length
      unfold headOfRequest at hH
      split at hH
      · simp only [Option.map_eq_some_iff] at hH
        obtain ⟨fs, -, rfl⟩ := hH
        unfold renderRequest
        simp only [List.length_append]
        have : (ascii "\r\n").length = 2 := rfl
        omega
      · cases hH
    rcases copy_spec (ClientEncoder.encSpec H req.body) fuel _ w hI with ⟨-, h⟩ | ⟨s, r, sent, used, h1, h2, h3, ⟨e, out, h4, h5⟩, h6⟩
    · exact h.elim
    · rw [h1]
      simp only [Run.ret_bind]
      have hp : sent <+: H ++ rem req.body := h5.trans h4.out
      cases r with
      | running => exact ⟨s.writer, .writing, sent, used, rfl, h2, h3, hp, by have := h6.1; dsimp only at this ⊢; rw [List.length_nil, Nat.sub_zero] at this; exact this, h6.2⟩
      | ok a => exact ⟨s.writer, .sent, sent, used, rfl, h2, h3, hp, h6.1.1, h6.1.2, h6.2.2⟩
      | err x =>
        refine ⟨s.writer, .failed (.io x), sent, used, rfl, h2, h3, hp, x, rfl, ?_⟩
        rcases h6 with h6 | ⟨pre, h6, -⟩ | ⟨h6, pre, h7, -⟩
        · exact .inl h6.1
        · exact .inr (.inl ⟨pre, h6⟩)
        · exact .inr (.inr ⟨h6, pre, h7⟩)

/-! ## C50 -/

/-- **C50.**  At every moment of writing a request, also if the future is dropped there or the transport fails, what the transport has received is a
prefix of the head followed by the bytes of the body; nothing, if the request has no head.  When the writing is done it is all of it, the body has been read to its end, and
the transport has reported no error. -/
theorem C50_written {req : ClientRequest σ} {fuel : Nat} {w w' : Writer} {r : SendRes} (h : clientSend fuel req w = .ret (w', r)) :
    ∃ sent, w'.got = w.got ++ sent ∧
      (∀ H, headOfRequest req = some H → sent <+: H ++ rem req.body) ∧ (headOfRequest req = none → sent = [] ∧ r ≠ .sent) ∧
      (r = .sent → ∃ H used, headOfRequest req = some H ∧ sent = H ++ rem req.body ∧ fin req.body = none ∧ w.script = used ++ w'.script ∧ ∀ x, WEv.err x ∉ used) := by
  have hs := clientSend_spec req fuel w
  cases hH : headOfRequest req with
  | none =>
    rw [hH] at hs
    rcases hs with ⟨⟨msg, hs⟩, -⟩ | ⟨hs, -⟩
    · rw [hs] at h
      simp only [Run.ret.injEq, Prod.mk.injEq] at h
      obtain ⟨rfl, rfl⟩ := h
      exact ⟨[], by simp, by simp, by simp, by simp⟩
    · rw [hs] at h; cases h
  | some H =>
    rw [hH] at hs
    obtain ⟨w1, r1, sent, used, h1, h2, h3, h4, h5⟩ := hs
    rw [h1] at h
    simp only [Run.ret.injEq, Prod.mk.injEq] at h
    obtain ⟨rfl, rfl⟩ := h
    refine ⟨sent, h2, ?_, by simp, ?_⟩
    · intro H' hH'; injection hH' with hH'; subst hH'; exact h4
    · intro hr; subst hr
      exact ⟨H, used, rfl, h5.1, h5.2.1, h3, h5.2.2⟩

/-- **C50.**  The whole of `connect`: at every moment the transport has got a prefix of the request.  The client begins to wait for the response, or returns one, only after
the whole request was written; and if the transport has reported an error, `connect` returns an error, whatever the peer sends. -/
theorem C50_connect {ρ : Type} [AsyncRead ρ] {now : Bytes} {pool : Pool} {fuel fuel' : Nat} {req : ClientRequest σ} {io : ρ} {w w' : Writer} {res : ConnectRes ρ} (h : connect now pool fuel fuel' req io w = .ret (w', res)) :
    ∃ sent used, w'.got = w.got ++ sent ∧ w.script = used ++ w'.script ∧ (∀ H, headOfRequest req = some H → sent <+: H ++ rem req.body) ∧ (headOfRequest req = none → sent = []) ∧
      ((∃ rsp, res = .done (.ok rsp)) ∨ (∃ buf, res = .reading buf) → ∃ H, headOfRequest req = some H ∧ sent = H ++ rem req.body ∧ fin req.body = none) ∧
      ((∃ x, WEv.err x ∈ used) → ∃ e, res = .done (.err e)) := by
  have hs := clientSend_spec req fuel w
  unfold connect at h
  obtain ⟨⟨w1, r1⟩, h1, h⟩ := Run.bind_eq_ret.1 h
  cases hH : headOfRequest req with
  | none =>
    rw [hH] at hs
    rcases hs with ⟨⟨msg, hs⟩, -⟩ | ⟨hs, -⟩
    · rw [hs] at h1
      simp only [Run.ret.injEq, Prod.mk.injEq] at h1
      obtain ⟨rfl, rfl⟩ := h1
      simp only [Run.ret.injEq, Prod.mk.injEq] at h
      obtain ⟨rfl, rfl⟩ := h
      exact ⟨[], [], by simp, rfl, by simp, by simp, by simp, by simp⟩
    · rw [hs] at h1; cases h1
  | some H =>
    rw [hH] at hs
    obtain ⟨w2, r2, sent, used, g1, g2, g3, g4, g5⟩ := hs
    rw [g1] at h1
    simp only [Run.ret.injEq, Prod.mk.injEq] at h1
    obtain ⟨rfl, rfl⟩ := h1
    have hH' : ∀ H', some H = some H' → sent <+: H' ++ rem req.body := by intro H' e; cases e; exact g4
    cases r2 with
    | writing =>
      simp only [Run.ret.injEq, Prod.mk.injEq] at h
      obtain ⟨rfl, rfl⟩ := h
      exact ⟨sent, used, g2, g3, hH', by simp, by simp, fun ⟨x, hx⟩ => absurd hx (g5.2 x)⟩
    | failed e =>
      simp only [Run.ret.injEq, Prod.mk.injEq] at h
      obtain ⟨rfl, rfl⟩ := h
      exact ⟨sent, used, g2, g3, hH', by simp, by simp, fun _ => ⟨e, rfl⟩⟩
    | sent =>
      simp only [] at h
      obtain ⟨d, -, h⟩ := Run.bind_eq_ret.1 h
      have hw : w' = w2 := by
        cases d <;> simp only [Run.ret.injEq, Prod.mk.injEq] at h <;> exact h.1.symm
      subst hw
      exact ⟨sent, used, g2, g3, hH', by simp, fun _ => ⟨H, rfl, g5.1, g5.2.1⟩, fun ⟨x, hx⟩ => absurd hx (g5.2.2 x)⟩

/-- **C50.**  Writing a request whose body has a known length returns: with an error and without having written anything if the address lacks what is needed,
and otherwise after finitely many steps; if the body is read without error and the transport is reliable, without an error. -/
theorem C50_returns {req : ClientRequest σ} {n : Nat} (hl : req.length = some n) (w : Writer) :
    ∃ bound, ∀ fuel, bound < fuel → ∃ w' r, clientSend fuel req w = .ret (w', r) ∧ r ≠ .writing ∧
      ((∃ msg, r = .failed (.encode msg)) ↔ ¬ Addressed req) ∧ (Addressed req → fin req.body = none → (∀ e ∈ w.script, e ≠ .accept 0 ∧ ∀ x, e ≠ .err x) → r = .sent) := by
  have hs := fun fuel => clientSend_spec req fuel w
  cases hH : headOfRequest req with
  | none =>
    rw [hH] at hs
    refine ⟨0, fun fuel _ => ?_⟩
    rcases hs fuel with ⟨⟨msg, hs⟩, hn⟩ | ⟨-, -, hn⟩
    · exact ⟨w, _, hs, by simp, ⟨fun _ => hn, fun _ => ⟨msg, rfl⟩⟩, fun ha => absurd ha hn⟩
    · rw [hl] at hn; cases hn
  | some H =>
    rw [hH] at hs
    have hA : Addressed req := by
      have he := encode_spec req
      unfold headOfRequest targetOf fieldsOf authority at hH
      rw [hl] at hH
      constructor
      · intro hh
        rw [hh] at hH
        constructor
        · intro hm; rw [if_pos hm] at hH; simp at hH
        · intro hg; rw [if_pos hg] at hH; split at hH
          · cases hH
          · cases hH
      · intro hp hm
        rw [if_pos hm, if_pos hp] at hH
        cases hH
    refine ⟨2 * (H.length + (rem req.body).length + meas req.body) + w.script.length, fun fuel hf => ?_⟩
    · obtain ⟨w', r, sent, used, h1, h2, h3, h4, h5⟩ := hs fuel
      refine ⟨w', r, h1, ?_, ⟨?_, fun hn => absurd hA hn⟩, ?_⟩
      · rintro rfl
        have := h5.1; omega
      · rintro ⟨msg, rfl⟩
        obtain ⟨x, h5, -⟩ := h5
        cases h5
      · intro _ hfin hw
        cases r with
        | writing => have := h5.1; omega
        | sent => rfl
        | failed e =>
          exfalso
          obtain ⟨x, -, h5 | ⟨pre, h5⟩ | ⟨-, pre, h5⟩⟩ := h5
          · rw [hfin] at h5; cases h5
          · exact (hw (.err x) (by rw [h3, h5]; simp)).2 x rfl
          · exact (hw (.accept 0) (by rw [h3, h5]; simp)).1 rfl

/-! ## C51 -/

/-- C51 is false of the code: a content-length that the application has set is sent in addition to the one of the encoder. -/
theorem C51_refuted_twice {req : ClientRequest σ} {H v : Bytes} {n : Nat} (hH : headOfRequest req = some H) (hl : req.length = some n) (hv : req.headers.getAll (ascii "content-length") = [v]) :
    ∃ t fs, H = renderRequest req.method t fs ∧ (fs.filter fun f => f.1 = ascii "content-length") = [(ascii "content-length", decimal n), (ascii "content-length", v)] := by
  unfold headOfRequest at hH
  rw [hl] at hH
  cases ht : targetOf req.method req.uri with
  | none => rw [ht] at hH; cases hH
  | some t =>
    rw [ht] at hH
    simp only [Option.map_eq_some_iff] at hH
    obtain ⟨fs, hf, rfl⟩ := hH
    refine ⟨t, fs, rfl, ?_⟩
    unfold fieldsOf at hf
    simp only [Option.map_eq_some_iff] at hf
    obtain ⟨hs, h1, rfl⟩ := hf
    have e1 : hs.filter (fun f => f.1 = ascii "content-length") = [] := by
      split at h1
      · simp only [Option.map_eq_some_iff] at h1
        obtain ⟨a, -, rfl⟩ := h1
        have : ascii "host" ≠ ascii "content-length" := by decide
        simp [this]
      · injection h1 with h1; subst h1; rfl
    have e2 : (if req.method = ascii "CONNECT" then [(ascii "proxy-connection", ascii "keep-alive")] else []).filter (fun f : Bytes × Bytes => f.1 = ascii "content-length") = [] := by
      have : ascii "proxy-connection" ≠ ascii "content-length" := by decide
      split <;> simp [this]
    have e3 : req.headers.iter.filter (fun f => f.1 = ascii "content-length") = [(ascii "content-length", v)] := by
      unfold HeaderMap.getAll at hv
      have hb : (fun e : Bytes × Bytes => e.1 == ascii "content-length") = fun f => decide (f.1 = ascii "content-length") := by
        funext f; rw [Bool.eq_iff_iff]; simp
      rw [hb] at hv
      generalize hL : req.headers.iter.filter (fun f => decide (f.1 = ascii "content-length")) = L at *
      cases L with
      | nil => cases hv
      | cons x L =>
        cases L with
        | nil =>
          simp only [List.map_cons, List.map_nil, List.cons.injEq, and_true] at hv
          have hx : x ∈ req.headers.iter.filter (fun f => decide (f.1 = ascii "content-length")) := by rw [hL]; simp
          have := (List.mem_filter.1 hx).2
          simp only [decide_eq_true_eq] at this
          rw [← this, ← hv]
        | cons y L => simp at hv
    rw [List.filter_append, List.filter_append, List.filter_append, e1, e2, e3]
    simp

/-- C51 is false of the code: a request whose body has no known length makes the client panic. -/
theorem C51_refuted_panic {req : ClientRequest σ} (ha : Addressed req) (hl : req.length = none) (fuel : Nat) (w : Writer) : clientSend fuel req w = .panic := by
  have hs := clientSend_spec req fuel w
  have hH : headOfRequest req = none := by
    unfold headOfRequest
    rw [hl]
    cases targetOf req.method req.uri <;> rfl
  rw [hH] at hs
  rcases hs with ⟨-, hn⟩ | ⟨hs, -⟩
  · exact absurd ha hn
  · exact hs

/-- **C51**, as far as it holds: if the application does not set content-length itself and the reader yields as many bytes as declared, the request written
has one content-length header, and its value is the number of bytes that follow the head. -/
theorem C51_framing_partial {req : ClientRequest σ} {n : Nat} (hl : req.length = some n) (hb : (rem req.body).length = n) (hc : req.headers.getAll (ascii "content-length") = [])
    {fuel : Nat} {w w' : Writer} (h : clientSend fuel req w = .ret (w', .sent)) :
    ∃ t fs body, w'.got = w.got ++ renderRequest req.method t fs ++ body ∧ (fs.filter fun f => f.1 = ascii "content-length") = [(ascii "content-length", decimal body.length)] := by
  obtain ⟨sent, h1, -, -, h2⟩ := C50_written h
  obtain ⟨H, used, h3, h4, -⟩ := h2 rfl
  unfold headOfRequest at h3
  rw [hl] at h3
  cases ht : targetOf req.method req.uri with
  | none => rw [ht] at h3; cases h3
  | some t =>
    rw [ht] at h3
    simp only [Option.map_eq_some_iff] at h3
    obtain ⟨fs, hf, rfl⟩ := h3
    refine ⟨t, fs, rem req.body, by rw [h1, h4, List.append_assoc], ?_⟩
    unfold fieldsOf at hf
    simp only [Option.map_eq_some_iff] at hf
    obtain ⟨hs, h1, rfl⟩ := hf
    have e1 : hs.filter (fun f => f.1 = ascii "content-length") = [] := by
      split at h1
      · simp only [Option.map_eq_some_iff] at h1
        obtain ⟨a, -, rfl⟩ := h1
        have : ascii "host" ≠ ascii "content-length" := by decide
        simp [this]
      · injection h1 with h1; subst h1; rfl
    have e2 : (if req.method = ascii "CONNECT" then [(ascii "proxy-connection", ascii "keep-alive")] else []).filter (fun f : Bytes × Bytes => f.1 = ascii "content-length") = [] := by
      have : ascii "proxy-connection" ≠ ascii "content-length" := by decide
      split <;> simp [this]
    have e3 : req.headers.iter.filter (fun f => f.1 = ascii "content-length") = [] := by
      unfold HeaderMap.getAll at hc
      rw [List.map_eq_nil_iff] at hc
      rw [← hc]
      congr 1
      funext f; rw [Bool.eq_iff_iff]; simp
    rw [List.filter_append, List.filter_append, List.filter_append, e1, e2, e3, hb]
    simp

end

/-! ## Concrete requests -/

/-- As in the documentation of the client. -/
def demoRequest : ClientRequest Script where
  method := ascii "POST"
  uri := ⟨ascii "/a", some (ascii "q=1"), some (ascii "h.org"), some (ascii "81")⟩
  headers := [(ascii "x-a", [ascii "1", ascii "2"])]
  body := [.data (ascii "hel"), .pending, .data (ascii "lo")]
  length := some 5

example : Addressed demoRequest := by unfold Addressed; decide
example : clientSend 30 demoRequest ⟨[.accept 50, .pending, .accept 10], [], 0⟩ =
    .ret (⟨[], ascii "POST /a?q=1 HTTP/1.1\r\nhost: h.org:81\r\ncontent-length: 5\r\nx-a: 1\r\nx-a: 2\r\n\r\nhello", 80⟩, .sent) := by decide +kernel
example : (rem demoRequest.body).length = 5 ∧ demoRequest.headers.getAll (ascii "content-length") = [] := by decide

/-- The transport fails after 50 bytes; the response that can be read is not looked at. -/
example : (match connect (ascii "NOW") ⟨fun _ => [], id, 0⟩ 30 30 demoRequest [Ev.data (ascii "HTTP/1.1 200 OK\r\ncontent-length: 0\r\n\r\n")] ⟨[.accept 50, .err (.transport 3)], [], 0⟩ with
    | .ret (w, .done (.err (.io (.transport 3)))) => w.got == ascii "POST /a?q=1 HTTP/1.1\r\nhost: h.org:81\r\ncontent-leng"
    | _ => false) = true := by decide +kernel

/-- A CONNECT request. -/
example : headOfRequest { demoRequest with method := ascii "CONNECT", length := some 0 } =
    some (ascii "CONNECT h.org:81 HTTP/1.1\r\nhost: h.org:81\r\nproxy-connection: keep-alive\r\ncontent-length: 0\r\nx-a: 1\r\nx-a: 2\r\n\r\n") := by decide +kernel

/-- An address without host. -/
def demoRelative : ClientRequest Script := { demoRequest with uri := ⟨ascii "/a", none, none, none⟩ }
example : ¬ Addressed demoRelative := by unfold Addressed; decide
example : clientSend 30 demoRelative ⟨[], [], 0⟩ = .ret (⟨[], [], 0⟩, .failed (.encode "Missing hostname")) := by decide +kernel

/-- The hypotheses of the refutations are met, and so C51 is false: the length is sent twice; a body that is longer or shorter than declared is sent as it is. -/
example : (clientSend 30 { demoRequest with headers := [(ascii "content-length", [ascii "4"])] } ⟨[], [], 0⟩) =
    .ret (⟨[], ascii "POST /a?q=1 HTTP/1.1\r\nhost: h.org:81\r\ncontent-length: 5\r\ncontent-length: 4\r\n\r\nhello", 83⟩, .sent) := by decide +kernel
/-- C51 is false of the code: the body is sent as the reader yields it, whatever length was declared. -/
theorem C51_refuted_body : ∃ (req : ClientRequest Script) (H : Bytes), req.length = some 4 ∧ req.headers = [] ∧ headOfRequest req = some H ∧
    clientSend 30 req ⟨[], [], 0⟩ = .ret (⟨[], H ++ ascii "hello", (H ++ ascii "hello").length⟩, .sent) :=
  ⟨{ demoRequest with headers := [], length := some 4 }, _, rfl, rfl, rfl, by decide +kernel⟩

end Tophat
