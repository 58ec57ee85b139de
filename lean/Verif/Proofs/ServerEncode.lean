import Verif.Model.ServerEncode
import Verif.Spec.Head
import Verif.Proofs.Http
import Verif.Proofs.ChunkedEncoder
/-! Helper lemmas about the server's response encoder. -/

set_option linter.unusedSectionVars false

namespace Tophat

/-! ### Head -/

theorem foldl_headerLine (l : List (Bytes × Bytes)) (b : Bytes) :
    l.foldl (fun b h => b ++ Encoder.headerLine h) b = b ++ Spec.renderFields l := by
  induction l generalizing b with
  | nil => simp [Spec.renderFields]
  | cons h l ih =>
    rw [List.foldl_cons, ih]
    simp [Spec.renderFields, Encoder.headerLine, crlf]
    rfl

theorem renderFields_append (a b : List (Bytes × Bytes)) :
    Spec.renderFields (a ++ b) = Spec.renderFields a ++ Spec.renderFields b := by
  simp [Spec.renderFields]

namespace Encoder

variable {ρ : Type} [AsyncBufRead ρ] [LawfulBufRead ρ]

/-- The head of a response, as specified. -/
def specHead (resp : InnerResponse ρ) (now : Bytes) : Bytes :=
  Spec.renderResponseHead resp.version resp.status (Spec.sentFields resp.headers resp.length now)

theorem headBytes_eq (v : Version) (st : StatusCode) (hs : HeaderMap) (len : Option Nat) (now : Bytes)
    (hw : hs.WF) :
    headBytes v st (storedHeaders hs len) len (if hs.containsKey H.date then none else some now) =
      Spec.renderResponseHead v st (Spec.sentFields hs len now) := by
  unfold headBytes
  simp only []
  rw [foldl_headerLine]
  simp only [Spec.renderResponseHead, Spec.sentFields]
  rw [HeaderMap.getAll_isEmpty hw.vals, HeaderMap.getAll_isEmpty hw.vals]
  have hf : ∀ l : List (Bytes × Bytes), (l.filter fun h => h.1 != H.contentLength).filter (fun h => h.1 != H.transferEncoding)
      = l.filter (fun f => decide (f.1 ≠ ascii "content-length" ∧ f.1 ≠ ascii "transfer-encoding")) := by
    intro l; rw [List.filter_filter]; congr 1; funext a
    simp only [H.contentLength, H.transferEncoding]
    by_cases h1 : a.1 = ascii "content-length" <;> by_cases h2 : a.1 = ascii "transfer-encoding" <;> simp [h1, h2]
  rw [hf]
  generalize hP : (fun (f : Bytes × Bytes) => decide (f.1 ≠ ascii "content-length" ∧ f.1 ≠ ascii "transfer-encoding")) = P
  have hPct : P (ascii "content-type", ascii "application/octet-stream") = true := by rw [← hP]; decide
  have key : List.filter P (HeaderMap.iter (storedHeaders hs len)) =
      List.filter P hs.iter ++
        (if len ≠ some 0 ∧ (!HeaderMap.containsKey hs (ascii "content-type")) = true then
          [(ascii "content-type", ascii "application/octet-stream")] else []) := by
    have aux : ∀ b : Bool, b = decide (len ≠ some 0) →
        List.filter P (HeaderMap.iter (if b then (if hs.containsKey H.contentType then hs
          else hs.insert H.contentType (ascii "application/octet-stream")) else hs)) =
      List.filter P hs.iter ++
        (if len ≠ some 0 ∧ (!HeaderMap.containsKey hs (ascii "content-type")) = true then
          [(ascii "content-type", ascii "application/octet-stream")] else []) := by
      intro b hb
      have hct : H.contentType = ascii "content-type" := rfl
      rw [hct]
      by_cases hl : len = some 0
      · have : b = false := by simp [hb, hl]
        subst this; simp [hl]
      · have : b = true := by simp [hb, hl]
        subst this
        cases hc : HeaderMap.containsKey hs (ascii "content-type") with
        | true => simp
        | false =>
          have : ascii "content-type" ∉ hs.map (·.1) := by
            intro hm; rw [← HeaderMap.containsKey_iff] at hm; simp [hm] at hc
          simp [hl, HeaderMap.iter_insert_new this, List.filter_append, hPct]
    apply aux
    cases len with
    | none => rfl
    | some n => cases n <;> simp
  rw [key]
  have hcr : crlf = [13, 10] := rfl
  have hd : ascii "date: " = ascii "date" ++ [58, 32] := by decide
  have hcl : ascii "content-length: " = ascii "content-length" ++ [58, 32] := by decide
  have hte : ascii "transfer-encoding: chunked" = ascii "transfer-encoding" ++ [58, 32] ++ ascii "chunked" := by decide
  have hdd : H.date = ascii "date" := rfl
  simp only [renderFields_append, hcr, hd, hcl, hte, hdd]
  cases len with
  | none =>
    cases HeaderMap.containsKey hs (ascii "date") <;>
      simp [Spec.framingField, Spec.renderFields]
  | some n =>
    cases HeaderMap.containsKey hs (ascii "date") <;>
      simp [Spec.framingField, Spec.renderFields]

theorem start_eq {hexLen : Nat → Nat} {now : Bytes} {fuel : Nat} (resp : InnerResponse ρ) (buf : Bytes)
    (hw : resp.headers.WF) :
    (encode resp).start hexLen now fuel buf =
      encodeHead hexLen fuel { encode resp with resp := { resp with headers := storedHeaders resp.headers resp.length }, headBuf := specHead resp now, state := .head } buf := by
  have := headBytes_eq resp.version resp.status resp.headers resp.length now hw
  simp only [start, encode, List.nil_append, specHead]
  rw [← this]
  rfl

theorem encodeHead_eq (hexLen : Nat → Nat) (fuel : Nat) (e : Encoder ρ) (buf : Bytes)
    (h : e.headBytesRead ≤ e.headBuf.length) :
    ∃ buf', buf'.length = buf.length ∧
      buf'.take (min (e.headBuf.length - e.headBytesRead) buf.length) =
        (e.headBuf.drop e.headBytesRead).take (min (e.headBuf.length - e.headBytesRead) buf.length) ∧
      encodeHead hexLen fuel e buf =
        (let len := min (e.headBuf.length - e.headBytesRead) buf.length
         let e' := { e with bytesRead := e.bytesRead + len, headBytesRead := e.headBytesRead + len }
         if e.headBytesRead + len = e.headBuf.length then
           match e.contentLength with
           | some _ => encodeFixedBody fuel { e' with state := .fixedBody } buf'
           | none => encodeChunkedBody hexLen { e' with state := .chunkedBody } buf'
         else .ret (e', buf', .ready (e.bytesRead + len))) := by
  generalize hlen : min (e.headBuf.length - e.headBytesRead) buf.length = len
  have hs : slice e.headBuf e.headBytesRead (e.headBytesRead + len) =
      .ret ((e.headBuf.drop e.headBytesRead).take len) := by
    have : e.headBytesRead ≤ e.headBytesRead + len ∧ e.headBytesRead + len ≤ e.headBuf.length := by omega
    simp only [slice, this, and_self, if_true]
    rw [List.drop_take]; simp
  have hl : ((e.headBuf.drop e.headBytesRead).take len).length = len := by simp; omega
  obtain ⟨buf', h1, h2, h3⟩ := writeAt_ok (buf := buf) (off := 0)
    (bs := (e.headBuf.drop e.headBytesRead).take len) (by omega)
  refine ⟨buf', h2, by simpa [hl] using h3, ?_⟩
  simp only [encodeHead, h, if_true, hlen, hs, Run.ret_bind, h1]
  rfl

/-! ### Chunked bodies -/

theorem encodeChunkedBody_eq {hexLen : Nat → Nat} (hx : HexLenOk hexLen) (e : Encoder ρ) (buf : Bytes)
    (hk : e.bytesRead ≤ buf.length) (hi : ChunkedEncoder.Inv e.chunked e.resp.body) :
    (∃ c body sub r, ChunkedEncoder.Step hexLen e.chunked e.resp.body (buf.drop e.bytesRead) c body sub r ∧
      encodeChunkedBody hexLen e buf =
        (let e' := { e with chunked := c, resp := { e.resp with body := body } }
         let buf' := buf.take e.bytesRead ++ sub
         match r with
         | .ready n => .ret (if e.bytesRead + n = 0 then { e' with bytesRead := e.bytesRead + n, state := .done } else { e' with bytesRead := e.bytesRead + n }, buf', .ready (e.bytesRead + n))
         | .err x => .ret (e', buf', .err x)
         | .pending => if e.bytesRead > 0 then .ret (e', buf', .ready e.bytesRead) else .ret (e', buf', .pending))) ∨
    (encodeChunkedBody hexLen e buf = .panic ∧ (buf.length - e.bytesRead = 3 ∨ buf.length - e.bytesRead = 4) ∧
      rem e.resp.body = [] ∧ fin e.resp.body = none ∧ e.chunked.state ≠ .ended) := by
  rcases ChunkedEncoder.encode_step hx (buf.drop e.bytesRead) hi with ⟨c, body, sub, r, h1, h2⟩ | ⟨h1, h2, h3⟩
  · refine .inl ⟨c, body, sub, r, h2, ?_⟩
    simp only [encodeChunkedBody, hk, if_true, h1, Run.ret_bind]
    cases r with
    | pending => rfl
    | err x => rfl
    | ready n =>
      simp only []
      by_cases h0 : e.bytesRead + n = 0 <;> simp only [h0, if_true, if_false]
  · refine .inr ⟨?_, by simpa using h2, h3⟩
    simp only [encodeChunkedBody, hk, if_true, h1, Run.panic_bind]

end Encoder

theorem Chunks.snoc {w p h d : Bytes} (hc : Spec.Chunks w p) (hs : Spec.ChunkSize h d.length) (hd : d ≠ []) :
    Spec.Chunks (w ++ (h ++ [13, 10] ++ d ++ [13, 10])) (p ++ d) := by
  induction hc with
  | nil => simpa using Spec.Chunks.cons hs hd .nil
  | cons h1 h2 _ ih =>
    have := Spec.Chunks.cons h1 h2 ih
    simpa [List.append_assoc] using this

theorem chunkSize_hexUpper (n : Nat) : Spec.ChunkSize (hexUpper n) n :=
  ⟨hexUpper_ne_nil n, hexNum_hexUpper n, hexUpper_head n⟩

namespace Encoder

variable {ρ : Type} [AsyncBufRead ρ] [LawfulBufRead ρ]

/-- What has been emitted of a chunked body: whole chunks carrying a prefix, or everything. -/
def ChRel (resp : InnerResponse ρ) (e : Encoder ρ) (w : Bytes) : Prop :=
  (e.chunked.state ≠ .ended ∧ ∃ p, Spec.Chunks w p ∧ rem resp.body = p ++ rem e.resp.body ∧
    fin e.resp.body = fin resp.body) ∨
  (e.chunked.state = .ended ∧ Spec.ChunkedMessage w (rem resp.body) ∧ fin resp.body = none)

/-- Invariant of a streaming encoder between polls; `out` is what was emitted so far. -/
def ChInv (resp : InnerResponse ρ) (now : Bytes) (e : Encoder ρ) (out : Bytes) : Prop :=
  match e.state with
  | .start => e = encode resp ∧ out = []
  | .head => e.contentLength = none ∧ e.headBuf = specHead resp now ∧ e.headBytesRead = out.length ∧
      out <+: specHead resp now ∧ out.length < (specHead resp now).length ∧ e.chunked = ChunkedEncoder.new ∧
      e.resp.body = resp.body
  | .chunkedBody => ∃ w, out = specHead resp now ++ w ∧ ChunkedEncoder.Inv e.chunked e.resp.body ∧ ChRel resp e w
  | .done => ∃ w, out = specHead resp now ++ w ∧ ChRel resp e w
  | .fixedBody => False

/-- What a streaming encoder still has to do. -/
def chWork (resp : InnerResponse ρ) (now : Bytes) (e : Encoder ρ) (out : Bytes) : Nat :=
  ((specHead resp now).length - out.length) + (rem e.resp.body).length +
    (if e.chunked.state = .ended then 0 else 1) + meas e.resp.body

/-- Outcome of one poll of a streaming encoder. -/
inductive ChStep (resp : InnerResponse ρ) (now : Bytes) (g : Prop) (W : Nat) (out buf : Bytes) :
    Encoder ρ → Bytes → EPoll → Prop
  | pending {e' buf'} : ChInv resp now e' out → e'.state = .chunkedBody → buf'.length = buf.length →
      chWork resp now e' out < W → ChStep resp now g W out buf e' buf' .pending
  | err {e' buf' x} : fin resp.body = some x → buf'.length = buf.length →
      (∀ w, out = specHead resp now ++ w → ∃ p, p = rem resp.body ∧ Spec.Chunks w p) →
      ChStep resp now g W out buf e' buf' (.err x)
  | ready {e' buf' n} : ChInv resp now e' (out ++ buf'.take n) → buf'.length = buf.length → n ≤ buf.length →
      (7 ≤ buf.length → g → (n = 0 → e'.state = .done) ∧ (e'.state = .done → e'.chunked.state = .ended)) →
      e'.state ≠ .start → (e'.state = .head → n = buf.length) →
      (n ≠ 0 → chWork resp now e' (out ++ buf'.take n) < W) → chWork resp now e' (out ++ buf'.take n) ≤ W →
      ChStep resp now g W out buf e' buf' (.ready n)

theorem hexUpper_length_le (n : Nat) : (hexUpper n).length ≤ n / 16 + 1 := by
  induction n using Nat.strongRecOn with
  | ind n ih =>
    rw [hexUpper_eq]
    split
    · simp
    · have := ih (n / 16) (by omega)
      simp; omega

theorem no_stall {hexLen : Nat → Nat} (hx : HexLenOk hexLen) {l : Nat} (h7 : 7 ≤ l)
    (h : (∃ m, 0 < m ∧ m ≤ l ∧ l ≤ hexLen m + 4) ∨ l ≤ hexLen 0 + 4) : False := by
  rcases h with ⟨m, _, h1, h2⟩ | h
  · have := hx.tight m
    have := hexUpper_length_le m
    omega
  · have := hx.tight 0
    have := hexUpper_length_le 0
    omega

theorem take_take_append (buf sub : Bytes) (k n : Nat) (hk : k ≤ buf.length) :
    (buf.take k ++ sub).take (k + n) = buf.take k ++ sub.take n := by
  rw [List.take_append, List.length_take, Nat.min_eq_left hk, Nat.add_sub_cancel_left,
    List.take_of_length_le (by simp; omega)]

theorem chunkedBody_step {hexLen : Nat → Nat} (hx : HexLenOk hexLen) {resp : InnerResponse ρ} {now : Bytes}
    {g : Prop} {W : Nat} {e : Encoder ρ} {out buf w : Bytes} (hst : e.state = .chunkedBody) (hk : e.bytesRead ≤ buf.length)
    (hk' : e.bytesRead = 0 ∨ out.length < (specHead resp now).length)
    (hi : ChunkedEncoder.Inv e.chunked e.resp.body) (hw : out ++ buf.take e.bytesRead = specHead resp now ++ w)
    (hr : ChRel resp e w) (hW : chWork resp now e out ≤ W) :
    (∃ e' buf' r, encodeChunkedBody hexLen e buf = .ret (e', buf', r) ∧ ChStep resp now g W out buf e' buf' r) ∨
    (encodeChunkedBody hexLen e buf = .panic ∧ (buf.length - e.bytesRead = 3 ∨ buf.length - e.bytesRead = 4) ∧
      rem e.resp.body = [] ∧ fin e.resp.body = none ∧ e.chunked.state ≠ .ended) := by
  rcases encodeChunkedBody_eq hx e buf hk hi with h | h
  case inr => exact .inr h
  obtain ⟨c, body, sub, r, hs, heq⟩ := h
  refine .inl ?_
  have hsub : sub.length = buf.length - e.bytesRead := by
    cases hs <;> simp_all
  have hblen : (buf.take e.bytesRead ++ sub).length = buf.length := by simp [hsub]; omega
  have hrel0 : e.chunked.state ≠ .ended → ∃ p, Spec.Chunks w p ∧ rem resp.body = p ++ rem e.resp.body ∧
      fin e.resp.body = fin resp.body := by
    intro h; rcases hr with ⟨_, h'⟩ | ⟨h', _⟩
    · exact h'
    · exact absurd h' h
  have htk : (buf.take e.bytesRead ++ sub).take e.bytesRead = buf.take e.bytesRead := by
    have := take_take_append buf sub e.bytesRead 0 hk
    simpa using this
  -- the general `ready` conclusion
  have ready : ∀ (n : Nat) (w' : Bytes), r = .ready n → n ≤ sub.length →
      specHead resp now ++ w ++ sub.take n = specHead resp now ++ w' → ChunkedEncoder.Inv c body →
      (∀ e'' : Encoder ρ, e''.chunked = c → e''.resp.body = body → ChRel resp e'' w') →
      (7 ≤ buf.length → e.bytesRead + n = 0 → c.state = .ended) →
      (rem body).length + (if c.state = .ended then 0 else 1) + meas body + (if n = 0 then 0 else 1) ≤
        (rem e.resp.body).length + (if e.chunked.state = .ended then 0 else 1) + meas e.resp.body →
      ∃ e' buf' r, encodeChunkedBody hexLen e buf = .ret (e', buf', r) ∧ ChStep resp now g W out buf e' buf' r := by
    intro n w' hrn hn hout hci hrel' hend hdec
    subst hrn
    refine ⟨_, _, _, heq, ?_⟩
    have hout' : out ++ (buf.take e.bytesRead ++ sub).take (e.bytesRead + n) = specHead resp now ++ w' := by
      rw [take_take_append _ _ _ _ hk, ← List.append_assoc, hw, hout]
    have hwork : ∀ e'' : Encoder ρ, e''.chunked = c → e''.resp.body = body → e.bytesRead + n ≠ 0 →
        chWork resp now e'' (out ++ (buf.take e.bytesRead ++ sub).take (e.bytesRead + n)) < W := by
      intro e'' hc hb hne
      have h1 : (specHead resp now).length - (out ++ (buf.take e.bytesRead ++ sub).take (e.bytesRead + n)).length = 0 := by
        rw [hout']; simp
      simp only [chWork] at hW
      simp only [chWork, h1, hc, hb]
      by_cases hn0 : n = 0
      · rw [if_pos hn0] at hdec
        have : out.length < (specHead resp now).length := by
          rcases hk' with hk' | hk'
          · omega
          · exact hk'
        omega
      · rw [if_neg hn0] at hdec; omega
    by_cases h0 : e.bytesRead + n = 0
    · rw [if_pos h0]
      refine .ready ?_ hblen (by omega) (fun h7 _ => ⟨fun _ => rfl, fun _ => hend h7 h0⟩) (by simp) (by simp) (fun h => absurd h0 h) ?_
      case refine_2 =>
        have h1 : (specHead resp now).length - (out ++ (buf.take e.bytesRead ++ sub).take (e.bytesRead + n)).length = 0 := by
          rw [hout']; simp
        simp only [chWork] at hW
        simp only [chWork, h1]
        have hn0 : n = 0 := by omega
        rw [if_pos hn0] at hdec
        omega
      exact ⟨w', hout', hrel' _ rfl rfl⟩
    · rw [if_neg h0]
      refine .ready ?_ hblen (by omega) (fun _ _ => ⟨fun h => absurd h h0, fun h => by simp [hst] at h⟩) (by simp [hst]) (by simp [hst]) (fun h => hwork _ rfl rfl h) (Nat.le_of_lt (hwork _ rfl rfl h0))
      simp only [ChInv, hst]
      exact ⟨w', hout', hci, hrel' _ rfl rfl⟩
  have hci := fun h => ChunkedEncoder.Step.inv hi hs h
  cases hs with
  | pending h0 h1 h2 h3 h4 h5 =>
    have hci := hci (by simp)
    have hrel : ∀ e'' : Encoder ρ, e''.chunked = c → e''.resp.body = body → ChRel resp e'' w := by
      intro e'' hc hb
      obtain ⟨p, a1, a2, a3⟩ := hrel0 h0
      exact .inl ⟨by simp [hc, h1], p, a1, by rw [hb, h2, a2], by rw [hb, h3, a3]⟩
    simp only [] at heq
    by_cases hk0 : e.bytesRead > 0
    · rw [if_pos hk0] at heq
      refine ⟨_, _, _, heq, ?_⟩
      refine .ready ?_ hblen hk (fun _ _ => ⟨fun h => by omega, fun h => by simp [hst] at h⟩) (by simp [hst]) (by simp [hst]) (fun _ => ?_) (Nat.le_of_lt ?_)
      · simp only [ChInv, hst]
        exact ⟨w, by rw [htk, hw], hci, hrel _ rfl rfl⟩
      all_goals
        simp only [chWork, h0, if_false] at hW
        simp only [chWork, h1, h2, htk, hw]
        simp
        omega
    · rw [if_neg hk0] at heq
      refine ⟨_, _, _, heq, ?_⟩
      refine .pending ?_ hst hblen ?_
      · have hk0 : e.bytesRead = 0 := by omega
        simp only [ChInv, hst]
        refine ⟨w, ?_, hci, hrel _ rfl rfl⟩
        simpa [hk0] using hw
      · simp only [chWork, h0, if_false] at hW
        simp only [chWork, h1, h2]
        simp
        omega
  | err h0 h1 h2 h3 =>
    refine ⟨_, _, _, heq, ?_⟩
    obtain ⟨p, a1, a2, a3⟩ := hrel0 h0
    refine .err (by rw [← a3, h2]) hblen ?_
    intro w' hw'
    rcases hk' with hk' | hk'
    · refine ⟨rem resp.body, rfl, ?_⟩
      rw [hk'] at hw
      simp only [List.take_zero, List.append_nil, hw', List.append_cancel_left_eq] at hw
      rw [hw, a2, h1, List.append_nil]; exact a1
    · rw [hw'] at hk'; simp at hk'; omega
  | stall h0 h1 h2 h3 h4 h5 h6 =>
    refine ready 0 w rfl (Nat.zero_le _) (by simp) (hci (by simp)) ?_ ?_ ?_
    · intro e'' hc hb
      obtain ⟨p, a1, a2, a3⟩ := hrel0 h0
      exact .inl ⟨by simp [hc, h1], p, a1, by rw [hb, h2, a2], by rw [hb, h3, a3]⟩
    · intro h7 hk0
      have hk0 : e.bytesRead = 0 := by omega
      simp [hk0] at h6
      exact (no_stall hx h7 h6).elim
    · simp [h0, h1, h2]; omega
  | stallEnd h0 h1 h2 h3 h4 h5 h6 h7 h8 =>
    refine ready 0 w rfl (Nat.zero_le _) (by simp) (hci (by simp)) ?_ ?_ ?_
    · intro e'' hc hb
      obtain ⟨p, a1, a2, a3⟩ := hrel0 h0
      exact .inl ⟨by simp [hc, h1], p, a1, by rw [hb, h4, a2, h2], by rw [hb, h5, ← a3, h3]⟩
    · intro h7 hk0
      simp at h8
      omega
    · simp [h0, h1, h2, h4]; omega
  | chunk h0 h1 h2 h3 h4 h5 h6 h7 h8 h9 =>
    rename_i d n
    refine ready n (w ++ (hexUpper d.length ++ crlf ++ d ++ crlf)) rfl (by omega) (by rw [h8, List.append_assoc]) (hci (by simp)) ?_ ?_ ?_
    · intro e'' hc hb
      obtain ⟨p, a1, a2, a3⟩ := hrel0 h0
      refine .inl ⟨by simp [hc, h1], p ++ d, Chunks.snoc a1 (chunkSize_hexUpper _) h2, ?_, ?_⟩
      · rw [hb, a2, h3, List.append_assoc]
      · rw [hb, h4, a3]
    · intro h7 hk0
      simp [crlf] at h9
      omega
    · have hn0 : n ≠ 0 := by simp [crlf] at h9; omega
      have : 0 < d.length := by rwa [List.length_pos_iff]
      simp [h0, h1, h3, hn0]; omega
  | last h0 h1 h2 h3 h4 h5 h6 h7 h8 h9 =>
    refine ready 5 (w ++ (48 :: crlf ++ crlf)) rfl (by omega) (by rw [h9, List.append_assoc]) (hci (by simp)) ?_ ?_ ?_
    · intro e'' hc hb
      obtain ⟨p, a1, a2, a3⟩ := hrel0 h0
      refine .inr ⟨by simp [hc, h1], ⟨w, ?_, rfl⟩, by rw [← a3, h3]⟩
      rw [a2, h2, List.append_nil]; exact a1
    · intro _ _; exact h1
    · simp [h0, h1, h2, h4]; omega
  | idle h0 h1 h2 =>
    refine ready 0 w rfl (Nat.zero_le _) (by simp) (hci (by simp)) ?_ ?_ ?_
    · intro e'' hc hb
      rcases hr with ⟨h, _⟩ | ⟨_, a1, a2⟩
      · exact absurd h0 h
      · exact .inr ⟨by simp [hc, h1], a1, a2⟩
    · intro _ _; exact h1
    · simp [h0, h1]

/-- When a poll of a streaming encoder panics: the whole head has been handed out, 3 or 4 bytes of
the buffer are left (all of it, or what the head left over) and the body has ended. -/
def PanicCase (resp : InnerResponse ρ) (now : Bytes) (out buf : Bytes) : Prop :=
  ∃ k, k ≤ buf.length ∧ (buf.length - k = 3 ∨ buf.length - k = 4) ∧
    (k = 0 ∧ (∃ w, out = specHead resp now ++ w ∧ Spec.Chunks w (rem resp.body)) ∨
     out.length + k = (specHead resp now).length ∧ rem resp.body = []) ∧ fin resp.body = none

theorem specHead_pos (resp : InnerResponse ρ) (now : Bytes) : 0 < (specHead resp now).length := by
  simp [specHead, Spec.renderResponseHead]; omega

/-- `encode_head` on a streaming encoder. -/
theorem head_step {hexLen : Nat → Nat} (hx : HexLenOk hexLen) {resp : InnerResponse ρ} {now : Bytes}
    {g : Prop} {W : Nat} {fuel : Nat} {e : Encoder ρ} {out buf : Bytes} (hs : e.state = .head) (hb : e.bytesRead = 0)
    (h : ChInv resp now e out) (hW : chWork resp now e out ≤ W) :
    (∃ e' buf' r, encodeHead hexLen fuel e buf = .ret (e', buf', r) ∧ ChStep resp now g W out buf e' buf' r) ∨
    (encodeHead hexLen fuel e buf = .panic ∧ PanicCase resp now out buf) := by
  simp only [ChInv, hs] at h
  obtain ⟨hcl, hhb, hhr, ⟨rest, hpre⟩, hlt, hch, hbody⟩ := h
  have hH : e.headBuf.length = (specHead resp now).length := by rw [hhb]
  obtain ⟨buf', hl, ht, heq⟩ := encodeHead_eq hexLen fuel e buf (by omega)
  simp only [hhb, hhr] at ht heq
  generalize hlen : min ((specHead resp now).length - out.length) buf.length = len at ht heq
  have hout : out ++ buf'.take len = (specHead resp now).take (out.length + len) := by
    rw [ht, ← hpre]; simp [List.take_append, List.take_of_length_le]
  by_cases hfull : out.length + len = (specHead resp now).length
  · simp only [hfull, if_true, hcl] at heq
    have hout' : out ++ buf'.take len = specHead resp now ++ [] := by rw [hout, hfull]; simp
    have := chunkedBody_step hx (resp := resp) (now := now) (g := g) (W := W) (out := out) (buf := buf') (w := [])
      (e := { e with bytesRead := e.bytesRead + len, headBytesRead := (specHead resp now).length, headBuf := specHead resp now, contentLength := none, state := .chunkedBody })
      rfl (by simp [hb]; omega) (.inr hlt)
      (by left; simp [hch, ChunkedEncoder.new])
      (by simpa [hb] using hout')
      (.inl ⟨by simp [hch, ChunkedEncoder.new], [], .nil, by simp [hbody], by simp [hbody]⟩) hW
    rcases this with ⟨e', b', r, g1, g2⟩ | ⟨g1, g2, g3, g4, g5⟩
    · refine .inl ⟨e', b', r, ?_, ?_⟩
      · rw [heq, ← g1]
      · cases g2 with
        | pending a a' b c => exact .pending a a' (by omega) c
        | err a b c => exact .err a (by omega) c
        | ready a b c d f g w w' => exact .ready a (by omega) (by omega) (by rw [← hl]; exact d) f (by rw [← hl]; exact g) w w'
    · refine .inr ⟨?_, len, by omega, ?_, ?_⟩
      · rw [heq, ← g1]
      · simp [hb, hl] at g2; exact g2
      · simp only [hbody] at g3 g4
        exact ⟨.inr ⟨hfull, g3⟩, g4⟩
  · simp only [hfull, if_false] at heq
    refine .inl ⟨_, _, _, heq, ?_⟩
    refine .ready ?_ hl (by omega) (fun h7 _ => ⟨fun h0 => by omega, fun h => by simp [hs] at h⟩) (by simp [hs]) (by simp [hb]; omega) ?_ ?_
    all_goals have hol : (out ++ buf'.take len).length = out.length + len := by rw [hout]; simp; omega
    case refine_2 =>
      intro hn0
      simp only [chWork] at hW
      simp only [hb, Nat.zero_add] at hn0
      simp only [chWork, hb, Nat.zero_add, hol]
      omega
    case refine_3 =>
      simp only [chWork] at hW
      simp only [chWork, hb, Nat.zero_add, hol]
      omega
    simp only [ChInv, hs, hb, Nat.zero_add]
    refine ⟨hcl, by trivial, hol.symm, ?_, ?_, hch, hbody⟩
    · rw [hout]; exact List.take_prefix _ _
    · rw [hol]; omega

theorem poll_step {hexLen : Nat → Nat} (hx : HexLenOk hexLen) {resp : InnerResponse ρ} {now : Bytes}
    {e : Encoder ρ} {out : Bytes} (buf : Bytes) (hl : resp.length = none) (hw : resp.headers.WF)
    (h : ChInv resp now e out) :
    (∃ e' buf' r, e.poll hexLen now buf = .ret (e', buf', r) ∧
      ChStep resp now (e.state = .done → e.chunked.state = .ended) (chWork resp now e out) out buf e' buf' r) ∨
    (e.poll hexLen now buf = .panic ∧ PanicCase resp now out buf) := by
  cases hs : e.state with
  | start =>
    simp only [ChInv, hs] at h
    obtain ⟨rfl, rfl⟩ := h
    have : (encode resp).poll hexLen now buf = (encode resp).start hexLen now (buf.length + 1) buf := by
      simp only [poll, pollFuel, encode]
    rw [this, start_eq resp buf hw]
    refine head_step hx rfl rfl ?_ (Nat.le_refl _)
    simp only [ChInv]
    exact ⟨hl, by trivial, by trivial, List.nil_prefix, specHead_pos resp now, by trivial, by trivial⟩
  | head =>
    have : e.poll hexLen now buf = encodeHead hexLen (buf.length + 1) { e with bytesRead := 0 } buf := by
      simp only [poll, pollFuel, hs]
    rw [this]
    refine head_step hx hs rfl ?_ (Nat.le_refl _)
    simp only [ChInv, hs] at h ⊢
    exact h
  | fixedBody => simp [ChInv, hs] at h
  | chunkedBody =>
    have hp : e.poll hexLen now buf = encodeChunkedBody hexLen { e with bytesRead := 0 } buf := by
      simp only [poll, pollFuel, hs]
    rw [hp]
    simp only [ChInv, hs] at h
    obtain ⟨w, h1, h2, h3⟩ := h
    rcases chunkedBody_step hx (e := { e with bytesRead := 0 }) (out := out) (buf := buf) hs (Nat.zero_le _) (.inl rfl) h2
      (by simpa using h1) h3 (Nat.le_refl _) with h | ⟨g1, g2, g3, g4, g5⟩
    · exact .inl h
    · refine .inr ⟨g1, 0, Nat.zero_le _, g2, ?_⟩
      simp only at g3 g4 g5
      rcases h3 with ⟨_, p, a1, a2, a3⟩ | ⟨a, _⟩
      · rw [g3, List.append_nil] at a2
        exact ⟨.inl ⟨rfl, w, h1, a2 ▸ a1⟩, by rw [← a3, g4]⟩
      · exact absurd a g5
  | done =>
    refine .inl ⟨{ e with bytesRead := 0 }, buf, .ready 0, by simp only [poll, pollFuel, hs], ?_⟩
    refine .ready ?_ rfl (Nat.zero_le _) (fun _ g => ⟨fun _ => hs, fun _ => g rfl⟩) (by simp [hs]) (by simp [hs]) (fun h => absurd rfl h) (by simp [chWork])
    simp only [ChInv, hs, List.take_zero, List.append_nil] at h ⊢
    exact h

/-- What a consumer of a streaming response may have received at some moment: part of the head, or
the head and whole chunks carrying a prefix of the body, or a complete message. -/
def ChOut (resp : InnerResponse ρ) (now out : Bytes) : Prop :=
  out <+: specHead resp now ∨
  (∃ w p, out = specHead resp now ++ w ∧ Spec.Chunks w p ∧ p <+: rem resp.body) ∨
  (∃ w, out = specHead resp now ++ w ∧ Spec.ChunkedMessage w (rem resp.body) ∧ fin resp.body = none)

theorem ChRel.out {resp : InnerResponse ρ} {now : Bytes} {e : Encoder ρ} {w : Bytes} (h : ChRel resp e w) :
    ChOut resp now (specHead resp now ++ w) := by
  rcases h with ⟨_, p, a1, a2, a3⟩ | ⟨_, a1, a2⟩
  · exact .inr (.inl ⟨w, p, rfl, a1, ⟨_, a2.symm⟩⟩)
  · exact .inr (.inr ⟨w, rfl, a1, a2⟩)

theorem ChInv.out {resp : InnerResponse ρ} {now : Bytes} {e : Encoder ρ} {out : Bytes}
    (h : ChInv resp now e out) : ChOut resp now out := by
  cases hs : e.state <;> simp only [ChInv, hs] at h
  · rw [h.2]; exact .inl List.nil_prefix
  · exact .inl h.2.2.2.1
  · obtain ⟨w, rfl, _, h⟩ := h; exact h.out
  · obtain ⟨w, rfl, h⟩ := h; exact h.out

theorem drive_cons {hexLen : Nat → Nat} {now : Bytes} (e : Encoder ρ) (buf : Bytes) (bufs : List Bytes) :
    drive hexLen now e (buf :: bufs) = (e.poll hexLen now buf >>= fun x =>
      match x with
      | (e, buf, r) => match r with
        | .pending => drive hexLen now e bufs
        | .err x => .ret (e, [], .failed x)
        | .ready n => drive hexLen now e bufs >>= fun y => match y with
          | (e, out, s) => .ret (e, buf.take n ++ out, if n = 0 then s.sawEof else s)) := rfl

theorem sawEof_ne_running (s : Status) : s.sawEof ≠ .running := by cases s <;> simp [Status.sawEof]

theorem sawEof_failed {s : Status} {x : IoErr} : s.sawEof = .failed x ↔ s = .failed x := by
  cases s <;> simp [Status.sawEof]

theorem drive_ch {hexLen : Nat → Nat} (hx : HexLenOk hexLen) {resp : InnerResponse ρ} {now : Bytes}
    (hl : resp.length = none) (hw : resp.headers.WF) (bufs : List Bytes) :
    ∀ (e : Encoder ρ) (out : Bytes), ChInv resp now e out →
      (∃ e' o st, drive hexLen now e bufs = .ret (e', o, st) ∧ ChOut resp now (out ++ o) ∧
        (∀ x, st = .failed x → fin resp.body = some x) ∧
        ((∀ b ∈ bufs, 7 ≤ b.length) → (e.state = .done → e.chunked.state = .ended) →
          (st = .eof ∨ e.state = .done ∧ ∀ x, st ≠ .failed x) → ∃ w, out ++ o = specHead resp now ++ w ∧
            Spec.ChunkedMessage w (rem resp.body) ∧ fin resp.body = none)) ∨
      (drive hexLen now e bufs = .panic ∧ ∃ pre buf post e' o st, bufs = pre ++ buf :: post ∧
        drive hexLen now e pre = .ret (e', o, st) ∧ PanicCase resp now (out ++ o) buf) := by
  induction bufs with
  | nil =>
    intro e out h
    refine .inl ⟨e, [], .running, rfl, by simpa using h.out, by simp, ?_⟩
    intro _ hg hst
    rcases hst with hst | ⟨hst, _⟩
    · simp at hst
    · simp only [ChInv, hst] at h
      obtain ⟨w, h1, h2⟩ := h
      rcases h2 with ⟨h2, _⟩ | ⟨_, h2, h3⟩
      · exact absurd (hg hst) h2
      · exact ⟨w, by simpa using h1, h2, h3⟩
  | cons buf bufs ih =>
    intro e out h
    rcases poll_step hx buf hl hw h with ⟨e1, buf1, r, hp, hs⟩ | ⟨hp, hpc⟩
    · cases hs with
      | pending h1 hst1 hb hwk =>
        rcases ih e1 out h1 with ⟨e', o, st, g1, g2, g3, g4⟩ | ⟨g1, pre, b, post, e', o, st, g2, g3, g4⟩
        · refine .inl ⟨e', o, st, by rw [drive_cons, hp]; exact g1, g2, g3, ?_⟩
          intro hall hg hst
          refine g4 (fun b hb => hall b (List.mem_cons_of_mem _ hb)) (by simp [hst1]) ?_
          rcases hst with hst | ⟨hst, hnf⟩
          · exact .inl hst
          · have : e.poll hexLen now buf = .ret ({ e with bytesRead := 0 }, buf, .ready 0) := by
              simp only [poll, pollFuel, hst]
            rw [this] at hp; simp at hp
        · refine .inr ⟨by rw [drive_cons, hp]; exact g1, buf :: pre, b, post, e', o, st, by rw [g2]; rfl, ?_, g4⟩
          rw [drive_cons, hp]; exact g3
      | err h1 hb h2 =>
        refine .inl ⟨e1, [], _, by rw [drive_cons, hp]; rfl, by simpa using h.out, ?_, ?_⟩
        · intro x hx; cases hx; exact h1
        · rintro _ _ (hst | ⟨_, hst⟩)
          · simp at hst
          · exact absurd rfl (hst _)
      | ready h1 hb hn hd hst1 hhd hwk hwk2 =>
        rename_i n
        rcases ih e1 _ h1 with ⟨e', o, st, g1, g2, g3, g4⟩ | ⟨g1, pre, b, post, e', o, st, g2, g3, g4⟩
        · refine .inl ⟨e', buf1.take n ++ o, if n = 0 then st.sawEof else st, ?_, ?_, ?_, ?_⟩
          · rw [drive_cons, hp, Run.ret_bind]; simp only [g1, Run.ret_bind]
          · rw [← List.append_assoc]; exact g2
          · intro x hx
            by_cases hn0 : n = 0
            · rw [if_pos hn0, sawEof_failed] at hx; exact g3 x hx
            · rw [if_neg hn0] at hx; exact g3 x hx
          · intro hall hg hst
            obtain ⟨d1, d2⟩ := hd (hall buf List.mem_cons_self) hg
            rw [← List.append_assoc]
            refine g4 (fun b hb => hall b (List.mem_cons_of_mem _ hb)) d2 ?_
            by_cases hn0 : n = 0
            · refine .inr ⟨d1 hn0, ?_⟩
              rw [if_pos hn0] at hst
              intro x hx
              subst hx
              rcases hst with hst | ⟨_, hst⟩
              · simp [Status.sawEof] at hst
              · exact hst x rfl
            · rw [if_neg hn0] at hst
              rcases hst with hst | ⟨hst, hnf⟩
              · exact .inl hst
              · have : e.poll hexLen now buf = .ret ({ e with bytesRead := 0 }, buf, .ready 0) := by
                  simp only [poll, pollFuel, hst]
                rw [this] at hp; simp at hp; omega
        · refine .inr ⟨?_, buf :: pre, b, post, e', buf1.take n ++ o, if n = 0 then st.sawEof else st, by rw [g2]; rfl, ?_, ?_⟩
          · rw [drive_cons, hp, Run.ret_bind]; simp only [g1, Run.panic_bind]
          · rw [drive_cons, hp, Run.ret_bind]; simp only [g3, Run.ret_bind]
          · rw [← List.append_assoc]; exact g4
    · exact .inr ⟨by rw [drive_cons, hp]; rfl, [], buf, bufs, e, [], .running, rfl, rfl, by simpa using hpc⟩

theorem ChInv.state_of_lt {resp : InnerResponse ρ} {now : Bytes} {e : Encoder ρ} {out : Bytes}
    (h : ChInv resp now e out) (hlt : out.length < (specHead resp now).length) :
    e.state = .start ∨ e.state = .head := by
  cases hs : e.state <;> simp only [ChInv, hs] at h
  · simp
  · simp
  · obtain ⟨w, rfl, _⟩ := h; simp at hlt; omega
  · obtain ⟨w, rfl, _⟩ := h; simp at hlt; omega

theorem chInv_start (resp : InnerResponse ρ) (now : Bytes) : ChInv resp now (encode resp) [] := by
  simp [ChInv, encode]

/-- With buffers all of the same length `L ≥ 5` a panic needs a head that leaves 3 or 4 bytes. -/
theorem drive_ch_uniform {hexLen : Nat → Nat} (hx : HexLenOk hexLen) {resp : InnerResponse ρ} {now : Bytes}
    (hl : resp.length = none) (hw : resp.headers.WF) {L : Nat} (hL : 5 ≤ L)
    (hmod : (specHead resp now).length % L ≠ L - 3 ∧ (specHead resp now).length % L ≠ L - 4 ∨ rem resp.body ≠ [])
    (bufs : List Bytes) (hb : ∀ b ∈ bufs, b.length = L) :
    ∀ (e : Encoder ρ) (out : Bytes), ChInv resp now e out →
      (e.state = .start ∨ e.state = .head → out.length % L = 0) → drive hexLen now e bufs ≠ .panic := by
  induction bufs with
  | nil => intro e out h _; simp [drive]
  | cons buf bufs ih =>
    intro e out h hal
    have ih := ih (fun b h => hb b (List.mem_cons_of_mem _ h))
    have hbl := hb buf List.mem_cons_self
    rcases poll_step hx buf hl hw h with ⟨e1, buf1, r, hp, hs⟩ | ⟨hp, hpc⟩
    · rw [drive_cons, hp, Run.ret_bind]
      cases hs with
      | pending h1 hst1 hb1 hwk => exact ih e1 out h1 (by simp [hst1])
      | err h1 => simp
      | ready h1 hb1 hn hd hst1 hhd hwk hwk2 =>
        rename_i n
        have := ih e1 _ h1 (by
          intro h'
          have hh : e1.state = .head := by rcases h' with h' | h'; exact absurd h' hst1; exact h'
          have hn := hhd hh
          have : (buf1.take n).length = L := by simp; omega
          simp only [ChInv, hh] at h1
          have hlt := h1.2.2.2.2.1
          have h0 : out.length % L = 0 := by
            exact hal (h.state_of_lt (by simp at hlt; omega))
          rw [List.length_append, this, Nat.add_mod_right, h0])
        intro hc
        simp only [] at hc
        cases hdr : drive hexLen now e1 bufs with
        | ret y => rw [hdr] at hc; simp at hc
        | panic => exact this hdr
        | diverge => rw [hdr] at hc; simp at hc
    · obtain ⟨k, k1, k2, k3, k4⟩ := hpc
      exfalso
      rcases k3 with ⟨k3, _⟩ | ⟨k3, kr⟩
      · omega
      · have hal' : out.length % L = 0 := by
          exact hal (h.state_of_lt (by omega))
        have : (specHead resp now).length % L = k := by
          rw [← k3, Nat.add_mod, hal', Nat.zero_add, Nat.mod_mod, Nat.mod_eq_of_lt (by omega)]
        rcases hmod with hmod | hmod
        · omega
        · exact hmod kr

end Encoder
end Tophat
