import Verif.Spec.ResponseOps
import Verif.Props.ServerDecode
import Verif.Proofs.OneAnswer
/-!
# Properties C37 and C38: building a response
-/

namespace Tophat
open Spec

section
variable {σ : Type}

theorem Response.applyAll_append (pre post : List (RespOp σ)) : ∀ (r r' : Response σ), r.applyAll (pre ++ post) = .ret r' →
    ∃ r1, r.applyAll pre = .ret r1 ∧ r1.applyAll post = .ret r' := by
  induction pre with
  | nil => intro r r' h; exact ⟨r, rfl, h⟩
  | cons op pre ih =>
    intro r r' h
    obtain ⟨r1, h1, h2⟩ := Run.bind_eq_ret.1 (show (r.apply op >>= fun r => r.applyAll (pre ++ post)) = .ret r' from h)
    obtain ⟨r2, h3, h4⟩ := ih r1 r' h2
    refine ⟨r2, ?_, h4⟩
    show (r.apply op >>= fun r => r.applyAll pre) = _
    rw [h1]; exact h3

theorem Response.apply_wf {r r' : Response σ} {op : RespOp σ} (hw : r.headers.WF) (ho : op.Ok) (h : r.apply op = .ret r') : r'.headers.WF := by
  cases op with
  | setCode c =>
    simp only [apply, setCode] at h
    split at h
    · simp only [Run.ret.injEq] at h; subst h; exact hw
    · cases h
  | replace x => simp only [apply, Run.ret.injEq] at h; subst h; exact ho
  | appendHeader n v => simp only [apply, Run.ret.injEq] at h; subst h; exact hw.append _ _
  | insertHeader n v => simp only [apply, Run.ret.injEq] at h; subst h; exact hw.insert _ _
  | setText t => simp only [apply, Run.ret.injEq] at h; subst h; exact hw.insert _ _
  | setSse t => simp only [apply, Run.ret.injEq] at h; subst h; exact hw.insert _ _
  | setStatus s => simp only [apply, Run.ret.injEq] at h; subst h; exact hw
  | setBody b => simp only [apply, Run.ret.injEq] at h; subst h; exact hw

theorem Response.applyAll_wf {ops : List (RespOp σ)} : ∀ {r r' : Response σ}, r.headers.WF → (∀ op ∈ ops, op.Ok) → r.applyAll ops = .ret r' → r'.headers.WF := by
  induction ops with
  | nil => intro r r' hw _ h; simp only [applyAll, Run.ret.injEq] at h; subst h; exact hw
  | cons op ops ih =>
    intro r r' hw ho h
    obtain ⟨r1, h1, h2⟩ := Run.bind_eq_ret.1 h
    exact ih (apply_wf hw (ho op (by simp)) h1) (fun o h => ho o (by simp [h])) h2

theorem Response.apply_headers {r r' : Response σ} {op : RespOp σ} (hw : r.headers.WF) (hr : ¬ op.IsReplace) (h : r.apply op = .ret r') (k : Bytes) :
    r'.headers.getAll k = match op.onHeaders with
      | .none => r.headers.getAll k
      | .replaces n v => if k = n then [v] else r.headers.getAll k
      | .adds n v => if k = n then r.headers.getAll k ++ [v] else r.headers.getAll k := by
  cases op with
  | setCode c =>
    simp only [apply, setCode] at h
    split at h
    · simp only [Run.ret.injEq] at h; subst h; rfl
    · cases h
  | replace x => exact (hr trivial).elim
  | appendHeader n v =>
    simp only [apply, Run.ret.injEq] at h; subst h
    exact HeaderMap.getAll_append hw.nodup n k v
  | insertHeader n v =>
    simp only [apply, Run.ret.injEq] at h; subst h
    exact HeaderMap.getAll_insert hw.nodup n k v
  | setText t =>
    simp only [apply, Run.ret.injEq] at h; subst h
    exact HeaderMap.getAll_insert hw.nodup _ k _
  | setSse t =>
    simp only [apply, Run.ret.injEq] at h; subst h
    exact HeaderMap.getAll_insert hw.nodup _ k _
  | setStatus s => simp only [apply, Run.ret.injEq] at h; subst h; rfl
  | setBody b => simp only [apply, Run.ret.injEq] at h; subst h; rfl

/-! ## C37 -/

/-- **C37**: as long as the header `name` is not replaced, it has the values it had at first and then those added, in order. -/
theorem C37_added {r : Response σ} (hw : r.headers.WF) (name : Bytes) {ops : List (RespOp σ)} (hr : ∀ op ∈ ops, ¬ op.IsReplace)
    (hn : ∀ op ∈ ops, ∀ v, op.onHeaders ≠ .replaces name v) {r' : Response σ} (h : r.applyAll ops = .ret r') :
    r'.headers.getAll name = r.headers.getAll name ++ RespOp.added name ops := by
  induction ops generalizing r with
  | nil => simp only [Response.applyAll, Run.ret.injEq] at h; subst h; simp [RespOp.added]
  | cons op ops ih =>
    obtain ⟨r1, h1, h2⟩ := Run.bind_eq_ret.1 h
    have ho : op.Ok := by
      have := hr op (by simp)
      cases op <;> first | trivial | exact (this trivial).elim
    rw [ih (Response.apply_wf hw ho h1) (fun o h => hr o (by simp [h])) (fun o h => hn o (by simp [h])) h2,
      Response.apply_headers hw (hr op (by simp)) h1 name, RespOp.added]
    have hx := hn op (by simp)
    cases hop : op.onHeaders with
    | none => rfl
    | replaces n v =>
      have : name ≠ n := by rintro rfl; exact hx v hop
      simp [this]
    | adds n v =>
      by_cases hnn : n = name
      · subst hnn; simp
      · simp [hnn, Ne.symm hnn]

/-- **C37**: after any sequence of operations, a header has exactly the value of the last operation that replaced it and the
values added since then, in order. -/
theorem C37_since_insert {r : Response σ} (hw : r.headers.WF) {pre post : List (RespOp σ)} {op : RespOp σ} {name v : Bytes}
    (hp : ∀ o ∈ pre, o.Ok) (hop : op.onHeaders = .replaces name v) (hr : ∀ o ∈ post, ¬ o.IsReplace)
    (hn : ∀ o ∈ post, ∀ v, o.onHeaders ≠ .replaces name v) {r' : Response σ} (h : r.applyAll (pre ++ op :: post) = .ret r') :
    r'.headers.getAll name = v :: RespOp.added name post := by
  obtain ⟨r1, h1, h2⟩ := Response.applyAll_append _ _ _ _ h
  obtain ⟨r2, h3, h4⟩ := Run.bind_eq_ret.1 h2
  have w1 := Response.applyAll_wf hw hp h1
  have hro : ¬ op.IsReplace := by cases op <;> simp_all [RespOp.IsReplace, RespOp.onHeaders]
  have hok : op.Ok := by cases op <;> simp_all [RespOp.Ok, RespOp.IsReplace]
  rw [C37_added (Response.apply_wf w1 hok h3) name hr hn h4, Response.apply_headers w1 hro h3 name, hop]
  simp

/-- **C37**: for a header that is not a framing header, the lines of the head with this name are those values; only if
there are none, `date` and `content-type` get a value from the server. -/
theorem C37_wire {hs : HeaderMap} {len : Option Nat} {now name : Bytes} (h1 : name ≠ ascii "content-length") (h2 : name ≠ ascii "transfer-encoding")
    (h3 : hs.getAll name ≠ [] ∨ (name ≠ ascii "date" ∧ name ≠ ascii "content-type")) :
    ((sentFields hs len now).filter fun f => f.1 = name).map (·.2) = hs.getAll name := by
  have e0 : (framingField len).1 ≠ name := by
    cases len
    · exact Ne.symm h2
    · exact Ne.symm h1
  have e1 : List.filter (fun f => decide (f.1 = name)) (if (hs.getAll (ascii "date")).isEmpty then [(ascii "date", now)] else []) = [] := by
    split
    · rename_i hd
      have : ascii "date" ≠ name := by
        rintro rfl
        rcases h3 with h3 | h3
        · exact h3 (List.isEmpty_iff.1 hd)
        · exact h3.1 rfl
      simp [this]
    · rfl
  have e2 : List.filter (fun f => decide (f.1 = name)) (if len ≠ some 0 ∧ (hs.getAll (ascii "content-type")).isEmpty then
      [(ascii "content-type", ascii "application/octet-stream")] else []) = [] := by
    split
    · rename_i hd
      have : ascii "content-type" ≠ name := by
        rintro rfl
        rcases h3 with h3 | h3
        · exact h3 (List.isEmpty_iff.1 hd.2)
        · exact h3.2 rfl
      simp [this]
    · rfl
  unfold sentFields
  rw [List.filter_append, List.filter_append, List.filter_append, e1, e2, List.filter_filter]
  simp only [List.filter_cons, e0, decide_false, Bool.false_eq_true, if_false, List.filter_nil, List.nil_append, List.append_nil]
  unfold HeaderMap.getAll
  congr 1
  apply List.filter_congr
  intro f _
  by_cases hf : f.1 = name
  · simp [hf, h1, h2]
  · simp [hf]

/-! ## C38 -/

/-- **C38**: operations that do not set the status leave it alone; at first it is 200. -/
theorem C38_status_kept {r : Response σ} {ops : List (RespOp σ)} (hr : ∀ op ∈ ops, ¬ op.IsReplace) (hn : ∀ op ∈ ops, op.onStatus = none)
    {r' : Response σ} (h : r.applyAll ops = .ret r') : r'.status = r.status := by
  induction ops generalizing r with
  | nil => simp only [Response.applyAll, Run.ret.injEq] at h; subst h; rfl
  | cons op ops ih =>
    obtain ⟨r1, h1, h2⟩ := Run.bind_eq_ret.1 h
    rw [ih (fun o h => hr o (by simp [h])) (fun o h => hn o (by simp [h])) h2]
    have a := hr op (by simp)
    have b := hn op (by simp)
    cases op <;> simp only [Response.apply, Run.ret.injEq] at h1 <;> first | (subst h1; rfl) | exact (a trivial).elim | cases b | skip

/-- **C38**: the status is the one set last, by `set_status` or `set_code`. -/
theorem C38_status {r : Response σ} {pre post : List (RespOp σ)} {op : RespOp σ} {s : Nat} (hop : op.onStatus = some s)
    (hr : ∀ o ∈ post, ¬ o.IsReplace) (hn : ∀ o ∈ post, o.onStatus = none) {r' : Response σ} (h : r.applyAll (pre ++ op :: post) = .ret r') : r'.status = s := by
  obtain ⟨r1, h1, h2⟩ := Response.applyAll_append _ _ _ _ h
  obtain ⟨r2, h3, h4⟩ := Run.bind_eq_ret.1 h2
  rw [C38_status_kept hr hn h4]
  cases op with
  | setStatus s' =>
    simp only [RespOp.onStatus, Option.some.injEq] at hop
    simp only [Response.apply, Run.ret.injEq] at h3
    subst h3; exact hop
  | setCode c =>
    simp only [RespOp.onStatus, Option.some.injEq] at hop
    subst hop
    simp only [Response.apply, Response.setCode, statusFromU16] at h3
    split at h3
    · rename_i x hx
      split at hx
      · injection hx with hx
        simp only [Run.ret.injEq] at h3; subst h3; exact hx.symm
      · cases hx
    · cases h3
  | _ => cases hop

/-- **C38**: operations that do not set the body leave it alone; at first it is empty. -/
theorem C38_body_kept {r : Response σ} {ops : List (RespOp σ)} (hr : ∀ op ∈ ops, ¬ op.IsReplace) (hn : ∀ op ∈ ops, op.onBody = none)
    {r' : Response σ} (h : r.applyAll ops = .ret r') : r'.body = r.body ∧ r'.version = r.version := by
  induction ops generalizing r with
  | nil => simp only [Response.applyAll, Run.ret.injEq] at h; subst h; exact ⟨rfl, rfl⟩
  | cons op ops ih =>
    obtain ⟨r1, h1, h2⟩ := Run.bind_eq_ret.1 h
    obtain ⟨i1, i2⟩ := ih (fun o h => hr o (by simp [h])) (fun o h => hn o (by simp [h])) h2
    rw [i1, i2]
    have a := hr op (by simp)
    have b := hn op (by simp)
    cases op with
    | setCode c =>
      simp only [Response.apply, Response.setCode] at h1
      split at h1
      · simp only [Run.ret.injEq] at h1; subst h1; exact ⟨rfl, rfl⟩
      · cases h1
    | replace x => exact (a trivial).elim
    | setBody x => cases b
    | setText x => cases b
    | setSse x => cases b
    | _ => simp only [Response.apply, Run.ret.injEq] at h1; subst h1; exact ⟨rfl, rfl⟩

/-- **C38**: the body is the one set last, by `set_body`, `set_text` or `set_sse`. -/
theorem C38_body {r : Response σ} {pre post : List (RespOp σ)} {op : RespOp σ} {b : RespBody σ} (hop : op.onBody = some b)
    (hr : ∀ o ∈ post, ¬ o.IsReplace) (hn : ∀ o ∈ post, o.onBody = none) {r' : Response σ} (h : r.applyAll (pre ++ op :: post) = .ret r') : r'.body = b := by
  obtain ⟨r1, h1, h2⟩ := Response.applyAll_append _ _ _ _ h
  obtain ⟨r2, h3, h4⟩ := Run.bind_eq_ret.1 h2
  rw [(C38_body_kept hr hn h4).1]
  cases op with
  | setBody x =>
    simp only [RespOp.onBody, Option.some.injEq] at hop
    simp only [Response.apply, Run.ret.injEq] at h3
    subst h3; exact hop
  | setText x =>
    simp only [RespOp.onBody, Option.some.injEq] at hop
    simp only [Response.apply, Run.ret.injEq] at h3
    subst h3; exact hop
  | setSse x =>
    simp only [RespOp.onBody, Option.some.injEq] at hop
    simp only [Response.apply, Run.ret.injEq] at h3
    subst h3; exact hop
  | _ => cases hop

/-- **C38**: the operations panic exactly if some `set_code` gets a number outside 100 to 999. -/
theorem C38_panic (r : Response σ) (ops : List (RespOp σ)) :
    (r.applyAll ops = .panic ↔ ∃ c, .setCode c ∈ ops ∧ ¬ (100 ≤ c ∧ c ≤ 999)) ∧
    ((∀ c, .setCode c ∈ ops → 100 ≤ c ∧ c ≤ 999) → ∃ r', r.applyAll ops = .ret r') := by
  suffices h : (r.applyAll ops = .panic ∧ ∃ c, .setCode c ∈ ops ∧ ¬ (100 ≤ c ∧ c ≤ 999)) ∨
      ((∃ r', r.applyAll ops = .ret r') ∧ ∀ c, .setCode c ∈ ops → 100 ≤ c ∧ c ≤ 999) by
    rcases h with ⟨h1, c, h2, h3⟩ | ⟨⟨r', h1⟩, h2⟩
    · exact ⟨⟨fun _ => ⟨c, h2, h3⟩, fun _ => h1⟩, fun h => absurd (h c h2) h3⟩
    · exact ⟨⟨fun h => (by rw [h1] at h; cases h), fun ⟨c, h3, h4⟩ => absurd (h2 c h3) h4⟩, fun _ => ⟨r', h1⟩⟩
  induction ops generalizing r with
  | nil => exact .inr ⟨⟨r, rfl⟩, fun c h => by cases h⟩
  | cons op ops ih =>
    by_cases hc : ∃ c, op = .setCode c ∧ ¬ (100 ≤ c ∧ c ≤ 999)
    · obtain ⟨c, rfl, hc⟩ := hc
      left
      refine ⟨?_, c, by simp, hc⟩
      have : ¬ (100 ≤ c ∧ c < 1000) := by omega
      simp [Response.applyAll, Response.apply, Response.setCode, statusFromU16, this]
    · have h1 : ∃ r1, r.apply op = .ret r1 := by
        cases op with
        | setCode c =>
          have : 100 ≤ c ∧ c < 1000 := Decidable.byContradiction fun h0 => hc ⟨c, rfl, by omega⟩
          exact ⟨{ r with status := c }, by simp only [Response.apply, Response.setCode, statusFromU16, this, and_self, if_true]⟩
        | _ => exact ⟨_, rfl⟩
      obtain ⟨r1, h1⟩ := h1
      have h2 : r.applyAll (op :: ops) = r1.applyAll ops := by simp only [Response.applyAll, h1, Run.ret_bind]
      rw [h2]
      rcases ih r1 with ⟨a, c, b, d⟩ | ⟨a, b⟩
      · exact .inl ⟨a, c, by simp [b], d⟩
      · refine .inr ⟨a, fun c h => ?_⟩
        rcases List.mem_cons.1 h with rfl | h
        · exact Decidable.byContradiction fun h0 => hc ⟨c, rfl, h0⟩
        · exact b c h

/-- **C38**: `send_code` panics exactly for codes outside 100 to 999 and otherwise changes nothing but the status. -/
theorem C38_send_code (r : Response σ) (code : Nat) :
    (r.toInnerCode code = .panic ↔ ¬ (100 ≤ code ∧ code ≤ 999)) ∧
    (100 ≤ code ∧ code ≤ 999 → r.toInnerCode code = .ret { r.toInner with status := code }) := by
  by_cases h : 100 ≤ code ∧ code < 1000
  · have h' : 100 ≤ code ∧ code ≤ 999 := by omega
    have e : r.toInnerCode code = .ret { r.toInner with status := code } := by
      simp only [Response.toInnerCode, Response.setCode, statusFromU16, h, and_self, if_true, Run.ret_bind, Response.toInner]
    rw [e]
    exact ⟨⟨fun h => (by cases h), fun h => absurd h' h⟩, fun _ => rfl⟩
  · have h' : ¬ (100 ≤ code ∧ code ≤ 999) := by omega
    have e : r.toInnerCode code = .panic := by
      simp only [Response.toInnerCode, Response.setCode, statusFromU16, h, if_false, Run.panic_bind]
    rw [e]
    exact ⟨⟨fun _ => h', fun _ => rfl⟩, fun h => absurd h h'⟩

section
variable [AsyncBufRead σ] [LawfulBufRead σ]

/-- **C38**: sending a response whose body is in memory puts on the wire (of a transport that does not fail) a head with
its version, status and headers and the exact length, and the body. -/
theorem C38_wire {env : Env} (hx : HexLenOk env.hexLen) {fuel n : Nat} {r : Response σ} {bs : Bytes} (hw : r.headers.WF) (hb : r.body = .fromBytes bs)
    (hlim : 8192 + bs.length < usizeLimit) {w w' : Writer} {res : CopyRes} (hr : w.Reliable) (h : sendFully env fuel n r.toInner w = .ret (w', res)) :
    w'.got = w.got ++ (responseHead r.version r.status r.headers (some bs.length) (env.now n) ++ bs) := by
  have hl : r.toInner.length = some bs.length := by unfold Response.toInner; rw [hb]; rfl
  have hrem : rem r.toInner.body = bs := by unfold Response.toInner; rw [hb]; rfl
  have hfin : fin r.toInner.body = none := by unfold Response.toInner; rw [hb]; rfl
  have hlim' : ∀ n, r.toInner.length = some n → 8192 + n < usizeLimit := by intro n hn; rw [hl] at hn; injection hn with hn; omega
  obtain ⟨a, _, ha, _⟩ := sendFully_whole hx (resp := r.toInner) hw hfin hlim' hr h
  subst ha
  unfold sendFully at h
  obtain ⟨⟨w1, r1⟩, h1, h2⟩ := Run.bind_eq_ret.1 h
  dsimp only at h2
  split at h2
  · cases h2
  · simp only [Run.ret.injEq, Prod.mk.injEq] at h2
    obtain ⟨rfl, rfl⟩ := h2
    obtain ⟨msg, a1, _, a2, _⟩ := C10_bytes_written hx (resp := r.toInner) hw hlim' h1
    rw [hl, hrem] at a2
    simp only [IsResponse, List.take_length] at a2
    rw [a1, a2]
    unfold headOf
    rw [hl]; rfl

end

end

/-- **C38, a discrepancy**: the documentation of `set_text` says that it sets 200 OK; it does not. -/
theorem C38_set_text_refuted : ∃ r' : Response Script, freshResponse.applyAll [.setStatus 404, .setText (ascii "hi")] = .ret r' ∧ r'.status = 404 :=
  ⟨_, rfl, rfl⟩

/-! ## Cases -/

/-- A sequence with all kinds of operations. -/
def demoOps : List (RespOp Script) :=
  [.appendHeader (ascii "x") (ascii "0"), .setCode 404, .insertHeader (ascii "x") (ascii "1"), .setText (ascii "hi"), .appendHeader (ascii "x") (ascii "2"),
   .setStatus 201, .appendHeader (ascii "y") (ascii "3"), .appendHeader (ascii "x") (ascii "4")]

/-- The hypotheses of the theorems are met: `x` is last replaced by the third operation, the status last set by the sixth. -/
example : ∃ r', freshResponse.applyAll demoOps = .ret r' ∧ r'.headers.getAll (ascii "x") = [ascii "1", ascii "2", ascii "4"] ∧ r'.status = 201 ∧
    r'.headers.getAll (ascii "content-type") = [ascii "text/plain"] ∧ r'.body = .fromBytes (ascii "hi") ∧ r'.headers.WF := by
  refine ⟨_, rfl, by decide, rfl, by decide, rfl, by decide, by decide⟩

example : (freshResponse (σ := Script)).headers.WF ∧
    demoOps = [.appendHeader (ascii "x") (ascii "0"), .setCode 404] ++ .insertHeader (ascii "x") (ascii "1") ::
      [.setText (ascii "hi"), .appendHeader (ascii "x") (ascii "2"), .setStatus 201, .appendHeader (ascii "y") (ascii "3"), .appendHeader (ascii "x") (ascii "4")] ∧
    RespOp.added (ascii "x") ([.setText (ascii "hi"), .appendHeader (ascii "x") (ascii "2"), .setStatus 201, .appendHeader (ascii "y") (ascii "3"), .appendHeader (ascii "x") (ascii "4")] : List (RespOp Script)) =
      [ascii "2", ascii "4"] := ⟨HeaderMap.wf_nil, rfl, by decide⟩

/-- A streamed body set by `set_sse`. -/
example : ∃ r', freshResponse.applyAll [.setText (ascii "hi"), .setSse ([.data (ascii "data: 1\n\n")] : Script)] = .ret r' ∧
    r'.body = .fromReader [.data (ascii "data: 1\n\n")] none ∧ r'.headers.getAll (ascii "content-type") = [ascii "text/event-stream"] :=
  ⟨_, rfl, rfl, by decide⟩

/-- A `set_code` that panics. -/
example : (freshResponse (σ := Script)).applyAll [.setStatus 200, .setCode 1000] = .panic := rfl

/-- The bytes accepted by a transport that first pauses, then takes three bytes, then everything. -/
def textWire (ops : List (RespOp Script)) : Run Bytes := do
  let r ← freshResponse.applyAll ops
  let (w, _) ← sendFully demoEnv 50 0 r.toInner ⟨[.pending, .accept 3], [], 0⟩
  .ret w.got

/-- What goes over the wire. -/
example : textWire [.setText (ascii "hi")] = .ret (responseHead .http11 200 [(ascii "content-type", [ascii "text/plain"])] (some 2) (demoEnv.now 0) ++ ascii "hi") := by
  decide +kernel

end Tophat
