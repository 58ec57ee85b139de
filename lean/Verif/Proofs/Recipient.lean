import Verif.Spec.Recipient
import Verif.Proofs.BodyGrammar
import Verif.Proofs.RoundTrip
import Verif.Proofs.DecoderMain
import Verif.Proofs.Glitch
import Verif.Proofs.OneAnswer
import Verif.Proofs.Served
/-! Helper lemmas: what a recipient reads. -/

set_option linter.unusedSectionVars false

namespace Tophat
open Spec

/-! ## A stream is read in one way -/

theorem section_unique {l l' x y : Bytes} {fs fs' : List (Bytes × Bytes)} (h : FieldSection l fs) (h' : FieldSection l' fs')
    (e : l ++ x = l' ++ y) : fs = fs' ∧ x = y := by
  have h1 := (Httparse.parseHeaders_ok (max fs.length fs'.length) (l ++ x) x fs).2 ⟨l, rfl, h, Nat.le_max_left _ _⟩
  have h2 := (Httparse.parseHeaders_ok (max fs.length fs'.length) (l ++ x) y fs').2 ⟨l', e, h', Nat.le_max_right _ _⟩
  rw [h1] at h2
  injection h2 with e1 e2
  exact ⟨e2, e1⟩

theorem replyHead_unique {h h' r r' : Bytes} {v v' c c' : Nat} {fs fs' : List (Bytes × Bytes)} (a : ReplyHead h v c fs) (b : ReplyHead h' v' c' fs')
    (e : h ++ r = h' ++ r') : h = h' ∧ r = r' ∧ c = c' ∧ fs = fs' := by
  have h1 := (Httparse.parseResponse_ok (max fs.length fs'.length) (h ++ r) r v c fs).2 ⟨h, rfl, a, Nat.le_max_left _ _⟩
  have h2 := (Httparse.parseResponse_ok (max fs.length fs'.length) (h ++ r) r' v' c' fs').2 ⟨h', e, b, Nat.le_max_right _ _⟩
  rw [h1] at h2
  injection h2 with e1 e2
  injection e2 with e2 e3 e4
  subst e1
  exact ⟨List.append_cancel_right e, rfl, e3, e4⟩

/-- A stream has at most one complete chunked body at its beginning. -/
theorem body_unique {s s' p p' r r' : Bytes} {fs fs' : List (Bytes × Bytes)} (h : Body s p fs) (h' : Body s' p' fs')
    (e : s ++ r = s' ++ r') : p = p' ∧ fs = fs' ∧ r = r' := by
  obtain ⟨w, l, t, rfl, hf, hl, ht⟩ := h
  obtain ⟨w', l', t', rfl, hf', hl', ht'⟩ := h'
  induction hf generalizing w' p' with
  | nil =>
    cases hf' with
    | nil =>
      obtain ⟨_, e2, _⟩ := Dec.line_det hl hl' (by simpa using e)
      obtain ⟨h1, h2⟩ := section_unique ht ht' e2
      exact ⟨rfl, h1, h2⟩
    | @cons l2 d w p hl2 hd _ =>
      obtain ⟨e1, _, _⟩ := Dec.line_det hl hl2 (x := t ++ r) (y := d ++ (13 :: 10 :: (w ++ (l' ++ (t' ++ r'))))) (by simpa using e)
      exact absurd (List.length_eq_zero_iff.1 e1.symm) hd
  | @cons l1 d1 w1 p1 hl1 hd1 _ ih =>
    cases hf' with
    | nil =>
      obtain ⟨e1, _, _⟩ := Dec.line_det hl' hl1 (x := t' ++ r') (y := d1 ++ (13 :: 10 :: (w1 ++ (l ++ (t ++ r))))) (by simpa using e.symm)
      exact absurd (List.length_eq_zero_iff.1 e1.symm) hd1
    | @cons l2 d2 w2 p2 hl2 hd2 hf2 =>
      obtain ⟨rfl, e2⟩ := frames_line hl1 hl2 rfl rfl (y := 13 :: 10 :: (w1 ++ (l ++ (t ++ r))))
        (y' := 13 :: 10 :: (w2 ++ (l' ++ (t' ++ r')))) (by simpa using e)
      simp only [List.cons.injEq, true_and] at e2
      obtain ⟨h1, h2, h3⟩ := ih w2 (by simpa using e2) hf2
      exact ⟨by rw [h1], h2, h3⟩

theorem oneReply_unique {m s s' r r' : Bytes} {c c' : Nat} {fs fs' : List (Bytes × Bytes)} {b b' : Bytes} (x : OneReply m s c fs b) (y : OneReply m s' c' fs' b')
    (e : s ++ r = s' ++ r') : s = s' ∧ r = r' ∧ c = c' ∧ fs = fs' ∧ b = b' := by
  cases x with
  | bodiless a1 a2 =>
    cases y with
    | bodiless b1 b2 =>
      obtain ⟨h1, h2, h3, h4⟩ := replyHead_unique a1 b1 e
      exact ⟨h1, h2, h3, h4, rfl⟩
    | chunked b1 b2 =>
      obtain ⟨-, -, rfl, -⟩ := replyHead_unique a1 b1 (by simpa using e)
      exact absurd a2 b2
    | length b1 b2 =>
      obtain ⟨-, -, rfl, -⟩ := replyHead_unique a1 b1 (by simpa using e)
      exact absurd a2 b2
  | chunked a1 a2 a3 a4 a5 =>
    cases y with
    | bodiless b1 b2 =>
      obtain ⟨-, -, rfl, -⟩ := replyHead_unique a1 b1 (by simpa using e)
      exact absurd b2 a2
    | chunked b1 b2 b3 b4 b5 =>
      obtain ⟨rfl, h2, rfl, rfl⟩ := replyHead_unique a1 b1 (by simpa using e)
      obtain ⟨rfl, -, rfl⟩ := body_unique a5 b5 h2
      exact ⟨by rw [List.append_cancel_right h2], rfl, rfl, rfl, rfl⟩
    | length b1 b2 b3 =>
      obtain ⟨-, -, rfl, rfl⟩ := replyHead_unique a1 b1 (by simpa using e)
      rw [b3] at a3
      cases a3
  | length a1 a2 a3 a4 a5 =>
    cases y with
    | bodiless b1 b2 =>
      obtain ⟨-, -, rfl, -⟩ := replyHead_unique a1 b1 (by simpa using e)
      exact absurd b2 a2
    | chunked b1 b2 b3 =>
      obtain ⟨-, -, rfl, rfl⟩ := replyHead_unique a1 b1 (by simpa using e)
      rw [a3] at b3
      cases b3
    | length b1 b2 b3 b4 b5 =>
      obtain ⟨rfl, h2, rfl, rfl⟩ := replyHead_unique a1 b1 (by simpa using e)
      obtain ⟨v, hv⟩ := List.exists_mem_of_ne_nil _ a4
      have hl := (a5 v hv).2.2.symm.trans (b5 v hv).2.2
      obtain ⟨rfl, rfl⟩ := List.append_inj h2 hl
      exact ⟨rfl, rfl, rfl, rfl, rfl⟩

theorem oneReply_ne_nil {m s : Bytes} {c : Nat} {fs : List (Bytes × Bytes)} {b : Bytes} (x : OneReply m s c fs b) : s ≠ [] := by
  have : ∀ {h v c fs}, ReplyHead h v c fs → h ≠ [] := by
    rintro _ _ _ _ ⟨bl, ds, e, sec, rfl, -⟩ h
    simp at h
  cases x with
  | bodiless a => exact this a
  | chunked a => intro h; exact this a (List.append_eq_nil_iff.1 h).1
  | length a => intro h; exact this a (List.append_eq_nil_iff.1 h).1

theorem replies_unique {ms : List (Option Bytes)} {s : Bytes} {as as' : List Answer} (x : Replies ms s as) : Replies ms s as' → as = as' := by
  have pick : ∀ m : Option Bytes, ∃ m', m = none ∨ m = some m' := fun m => by
    cases m with
    | none => exact ⟨[], .inl rfl⟩
    | some m => exact ⟨m, .inr rfl⟩
  intro y
  generalize es : s = s' at y
  induction x generalizing s' as' with
  | nil =>
    cases y
    rfl
  | @interim m ms s code fs r as a1 a2 _ ih =>
    obtain ⟨m', hm⟩ := pick m
    cases y with
    | interim b1 b2 b3 =>
      obtain ⟨rfl, rfl, -⟩ := oneReply_unique (a2 m' hm) (b2 m' hm) es
      exact ih _ rfl b3
    | final b1 b2 b3 =>
      obtain ⟨-, -, rfl, -⟩ := oneReply_unique (a2 m' hm) (b2 m' hm) es
      omega
  | @final m ms s code fs b r as a1 a2 _ ih =>
    obtain ⟨m', hm⟩ := pick m
    cases y with
    | interim b1 b2 b3 =>
      obtain ⟨-, -, rfl, -⟩ := oneReply_unique (a2 m' hm) (b2 m' hm) es
      omega
    | final b1 b2 b3 =>
      obtain ⟨rfl, rfl, rfl, rfl, rfl⟩ := oneReply_unique (a2 m' hm) (b2 m' hm) es
      rw [ih _ rfl b3]

theorem replies_append {ms ms' : List (Option Bytes)} {s s' : Bytes} {as as' : List Answer} (x : Replies ms s as) (y : Replies ms' s' as') :
    Replies (ms ++ ms') (s ++ s') (as ++ as') := by
  induction x with
  | nil => exact y
  | interim a1 a2 _ ih => rw [List.append_assoc]; exact .interim a1 a2 ih
  | final a1 a2 _ ih => rw [List.append_assoc]; exact .final a1 a2 ih

/-! ## The head of a sent response -/

/-- A token as name, and a value of permitted bytes. -/
def FieldOk (f : Bytes × Bytes) : Prop := f.1 ≠ [] ∧ (∀ b ∈ f.1, tokenByte b) ∧ ∀ b ∈ f.2, valueByte b

theorem fieldSection_seen {fs : List (Bytes × Bytes)} (h : ∀ f ∈ fs, FieldOk f) : FieldSection (renderFields fs ++ [13, 10]) (fs.map fun f => (f.1, trimmed f.2)) := by
  induction fs with
  | nil => exact .blank (.inl rfl)
  | cons f fs ih =>
    obtain ⟨h1, h2, h3⟩ := h f (by simp)
    have e : renderFields (f :: fs) ++ [13, 10] =
        (f.1 ++ 58 :: ((32 :: f.2.takeWhile fun b => b == 32 || b == 9) ++ (trimmed f.2 ++ [13, 10]))) ++ (renderFields fs ++ [13, 10]) := by
      have : f.2 = (f.2.takeWhile fun b => b == 32 || b == 9) ++ trimmed f.2 := (List.takeWhile_append_dropWhile).symm
      conv => lhs; simp only [renderFields, List.flatMap_cons]; rw [this]
      simp [renderFields]
    rw [e]
    refine .field ⟨_, [13, 10], rfl, h1, h2, ?_, fun b hb => h3 b ((List.dropWhile_suffix _).subset hb), ?_, .inl rfl⟩ (ih fun f hf => h f (by simp [hf]))
    · intro b hb
      rcases List.mem_cons.1 hb with rfl | hb
      · exact .inl rfl
      · have := List.all_eq_true.1 (List.all_takeWhile (l := f.2) (p := fun b : UInt8 => b == 32 || b == 9)) b hb
        simpa using this
    · intro b hb
      have := List.head?_dropWhile_not (fun b : UInt8 => b == 32 || b == 9) f.2
      unfold trimmed at hb
      rw [hb] at this
      simpa using this

theorem sentFields_ok {hs : HeaderMap} {len : Option Nat} {now : Bytes} (hv : hs.Valid) (hn : ∀ b ∈ now, valueByte b) : ∀ f ∈ sentFields hs len now, FieldOk f := by
  have mk : ∀ n v : Bytes, (n ≠ [] ∧ (n.all fun b => isTokenByte b) = true) → (∀ b ∈ v, valueByte b) → FieldOk (n, v) :=
    fun n v h1 h2 => ⟨h1.1, fun b hb => (Httparse.isTokenByte_iff b).1 (List.all_eq_true.1 h1.2 b hb), h2⟩
  have val : ∀ n : Bytes, (n.all fun b => headerValueByte b) = true → ∀ b ∈ n, valueByte b := fun n h b hb => valueByte_of (List.all_eq_true.1 h b hb)
  intro f hf
  simp only [sentFields, List.mem_append, List.mem_singleton] at hf
  rcases hf with ((rfl | hf) | hf) | hf
  · cases len with
    | none => exact mk _ _ (by decide) (val _ (by decide))
    | some n =>
      refine mk _ _ (by decide) fun b hb => ?_
      obtain ⟨d1, d2⟩ := decimal_digit n b hb
      exact .inr ⟨by omega, by omega⟩
  · split at hf
    · simp only [List.mem_singleton] at hf
      subst hf
      exact mk _ _ (by decide) hn
    · simp at hf
  · have hf := (List.mem_filter.1 hf).1
    obtain ⟨h1, h2, h3⟩ := headerName_token (hv.names f hf)
    obtain ⟨h4, h5⟩ := headerValue_byte (hv.values f hf)
    exact ⟨h1, fun b hb => (Httparse.isTokenByte_iff b).1 (h2 b hb), fun b hb => valueByte_of (h4 b hb)⟩
  · split at hf
    · simp only [List.mem_singleton] at hf
      subst hf
      exact mk _ _ (by decide) (val _ (by decide))
    · simp at hf

theorem replyHead_seen {st : StatusCode} {hs : HeaderMap} {len : Option Nat} {now : Bytes} (h1 : 100 ≤ st) (h2 : st < 1000) (hv : hs.Valid) (hn : ∀ b ∈ now, valueByte b) :
    ReplyHead (responseHead .http11 st hs len now) 1 st (seenFields hs len now) := by
  refine ⟨[], decimal st, 32 :: ((canonicalReason st).getD (ascii "<unknown status code>") ++ [13, 10]),
    renderFields (sentFields hs len now) ++ [13, 10], ?_, .nil, by omega, decimal_three h1 h2, decimal_digit st, decNum_decimal st, .inr ⟨_, _, rfl, reason_valueBytes st, .inl rfl⟩,
    fieldSection_seen (sentFields_ok hv hn)⟩
  have e : Version.http11.debug = ascii "HTTP/1." ++ [UInt8.ofNat (48 + 1)] := by decide
  unfold responseHead renderResponseHead statusDisplay
  rw [e]
  simp

theorem valuesOf_seen {hs : HeaderMap} (len : Option Nat) (now k : Bytes) :
    valuesOf k (seenFields hs len now) = (valuesOf k (sentFields hs len now)).map trimmed := by
  unfold valuesOf seenFields
  rw [List.filter_map, List.map_map, List.map_map]
  rfl

theorem valuesOf_framing {hs : HeaderMap} (hv : hs.Valid) (len : Option Nat) (now k : Bytes) (hk : k = ascii "content-length" ∨ k = ascii "transfer-encoding") :
    valuesOf k (seenFields hs len now) = if (framingField len).1 = k then [trimmed (framingField len).2] else [] := by
  rw [valuesOf_seen, valuesOf_sent hv]
  have h1 : ascii "date" ≠ k := by rcases hk with rfl | rfl <;> decide
  have h2 : ascii "content-type" ≠ k := by rcases hk with rfl | rfl <;> decide
  have h3 : ¬ (k ≠ ascii "content-length" ∧ k ≠ ascii "transfer-encoding") := by rcases hk with rfl | rfl <;> simp
  rw [if_neg (c := _ ∧ ascii "date" = k) (fun h => h1 h.2), if_neg h3, if_neg (c := _ ∧ ascii "content-type" = k) (fun h => h2 h.2)]
  split <;> simp

theorem trimmed_decimal (n : Nat) : trimmed (decimal n) = decimal n := by
  unfold trimmed
  cases h : decimal n with
  | nil => rfl
  | cons b r =>
    have := decimal_digit n b (by rw [h]; simp)
    have h32 : b ≠ 32 := by rintro rfl; revert this; decide
    have h9 : b ≠ 9 := by rintro rfl; revert this; decide
    rw [List.dropWhile_cons_of_neg (by simp [h32, h9])]

/-- A response, as it is read. -/
theorem oneReply_sent {m : Bytes} {st : StatusCode} {hs : HeaderMap} {len : Option Nat} {now body msg : Bytes} (h1 : 100 ≤ st) (h2 : st < 1000) (hv : hs.Valid) (hn : ∀ b ∈ now, valueByte b)
    (hlen : ∀ n, len = some n → n ≤ body.length) (hstream : len = none → body.length < 2 ^ 64) (hb : Bodiless m st → len = some 0)
    (hr : IsResponse (responseHead .http11 st hs len now) len body msg) : OneReply m msg st (seenFields hs len now) (sentBody len body) := by
  have hh := replyHead_seen (len := len) h1 h2 hv hn
  have hc := valuesOf_framing hv len now (ascii "content-length") (.inl rfl)
  have ht := valuesOf_framing hv len now (ascii "transfer-encoding") (.inr rfl)
  by_cases hbl : Bodiless m st
  · have := hb hbl
    subst this
    have e : msg = responseHead .http11 st hs (some 0) now := by
      have : msg = _ ++ _ := hr
      simpa using this
    rw [e]
    exact .bodiless hh hbl
  · cases len with
    | some n =>
      have e : msg = responseHead .http11 st hs (some n) now ++ body.take n := hr
      rw [if_neg (by show ¬ ascii "content-length" = _; decide)] at ht
      rw [if_pos (by rfl)] at hc
      rw [e]
      refine .length hh hbl ht (by rw [hc]; simp) ?_
      intro v hv
      rw [hc] at hv
      simp only [framingField, List.mem_singleton] at hv
      rw [hv, trimmed_decimal]
      refine ⟨decimal_ne_nil n, decimal_digit n, ?_⟩
      rw [decNum_decimal]
      show n = (body.take n).length
      rw [List.length_take, Nat.min_eq_left (hlen n rfl)]
    | none =>
      obtain ⟨wire, e, hw⟩ := hr
      rw [if_pos (by rfl)] at ht
      rw [e]
      exact .chunked hh hbl (by rw [ht]; rfl) (by decide) (hw.body (hstream rfl))

end Tophat

/-! ## What an endpoint sends -/

namespace Tophat
open Spec

theorem mem_iter {m : HeaderMap} {k v : Bytes} : (k, v) ∈ m.iter ↔ v ∈ m.getAll k := by
  unfold HeaderMap.getAll
  simp

theorem glitch_valid {g : Glitch} {v : Bool} (hg : ∀ hs, g.headers = some hs → hs.WF) (hv : ∀ hs, g.headers = some hs → hs.Valid) :
    (g.intoInnerResponse v).headers.Valid := by
  have hh : (g.headers.getD []).Valid := by
    cases hh : g.headers with
    | none => exact ⟨by simp [HeaderMap.iter], by simp [HeaderMap.iter]⟩
    | some hs => exact hv hs hh
  have key : ∀ f ∈ (g.intoInnerResponse v).headers.iter, f ∈ (g.headers.getD []).iter ∨ f = (ascii "content-type", ascii "text/plain") := by
    rintro ⟨k, x⟩ hf
    have h1 := mem_iter.1 hf
    rw [(glitch_headers hg v).2 k] at h1
    split at h1
    · rename_i hc
      simp only [List.mem_singleton] at h1
      right; rw [h1, hc.1]
    · exact .inl (mem_iter.2 h1)
  refine ⟨fun f hf => ?_, fun f hf => ?_⟩
  · rcases key f hf with h | rfl
    · exact hh.names f h
    · decide +kernel
  · rcases key f hf with h | rfl
    · exact hh.values f h
    · decide +kernel

section
variable {ρ : Type} [AsyncRead ρ] [LawfulRead ρ] {σ : Type} [AsyncBufRead σ] [LawfulBufRead σ]

theorem sendFully_legible {env : Env} (hx : HexLenOk env.hexLen) {fuel n : Nat} {resp : InnerResponse σ} {w w' : Writer} {r : CopyRes} {m : Bytes}
    (hl : Legible m resp) (hc : ∀ b ∈ env.now n, valueByte b) (hf : fin resp.body = none) (hr : w.Reliable) (h : sendFully env fuel n resp w = .ret (w', r)) :
    ∃ a msg, r = .ok a ∧ w'.got = w.got ++ msg ∧ OneReply m msg resp.status (seenFields resp.headers resp.length (env.now n)) (sentBody resp.length (rem resp.body)) := by
  obtain ⟨a, _, rfl, _, _⟩ := sendFully_whole hx hl.wf hf hl.limit hr h
  unfold sendFully at h
  obtain ⟨⟨w1, r1⟩, h1, h2⟩ := Run.bind_eq_ret.1 h
  dsimp only at h2
  split at h2
  · cases h2
  · simp only [Run.ret.injEq, Prod.mk.injEq] at h2
    obtain ⟨rfl, rfl⟩ := h2
    obtain ⟨msg, a1, _, a2, _, a3, _⟩ := C10_bytes_written hx hl.wf hl.limit h1
    unfold headOf at a2
    rw [hl.version] at a2
    exact ⟨a, msg, rfl, a1, oneReply_sent (Nat.le_trans (by decide) hl.status.1) hl.status.2 hl.valid hc a3 hl.stream hl.bodiless a2⟩

theorem answerGlitch_legible {env : Env} (hx : HexLenOk env.hexLen) {opts : ServerOpts} {fuel n : Nat} {g : Glitch} {w w' : Writer} {ev : List Event} {m : Bytes}
    (hg : g.Legible m opts.verboseGlitch) (hc : ∀ b ∈ env.now n, valueByte b) (hr : w.Reliable) (h : answerGlitch env opts fuel n (some g) w = .ret (w', ev)) :
    ∃ msg, w'.got = w.got ++ msg ∧ OneReply m msg (g.status.getD 500)
      (seenFields (g.intoInnerResponse opts.verboseGlitch).headers (some (glitchBody opts.verboseGlitch g.message g.trace).length) (env.now n)) (glitchBody opts.verboseGlitch g.message g.trace) := by
  simp only [answerGlitch] at h
  obtain ⟨⟨w1, r⟩, h1, h2⟩ := Run.bind_eq_ret.1 h
  simp only [Run.ret.injEq, Prod.mk.injEq] at h2
  obtain ⟨rfl, rfl⟩ := h2
  have hm := glitch_memory (v := opts.verboseGlitch) hg.ok
  have hl : Legible m (g.intoInnerResponse opts.verboseGlitch) := by
    refine ⟨?_, ?_, hm.wf, glitch_valid hg.ok.1 hg.valid, fun k hk => by rw [hm.length] at hk; injection hk with hk; rw [← hk]; exact hm.limit, ?_, ?_⟩
    · show g.version.getD .http11 = _
      rcases hg.version with h | h <;> rw [h] <;> rfl
    · show 200 ≤ g.status.getD 500 ∧ g.status.getD 500 < 1000
      cases hs : g.status with
      | none => decide
      | some st => exact hg.status st hs
    · intro h; cases h
    · intro h
      have := hg.bodiless h
      show some (g.bodyText _).length = _
      rw [glitchBody_eq, this]
      rfl
  obtain ⟨_, msg, _, k1, k2⟩ := sendFully_legible hx hl hc rfl hr h1
  refine ⟨msg, k1, ?_⟩
  have e : sentBody (g.intoInnerResponse opts.verboseGlitch).length (rem (g.intoInnerResponse opts.verboseGlitch).body) = glitchBody opts.verboseGlitch g.message g.trace := by
    rw [← glitchBody_eq]
    exact List.take_length
  rw [e] at k2
  rw [← glitchBody_eq] at k2 ⊢
  exact k2

theorem runProg_legible {env : Env} (hx : HexLenOk env.hexLen) {v : Bool} {fuel n : Nat} {m : Bytes} (hc : ∀ b ∈ env.now n, valueByte b) (a : Prog σ) :
    ∀ (body body' : ReqBody ρ) (w w' : Writer) (ev : List Event) (g : Option Glitch),
    a.Legible m v → w.Reliable → runProg env fuel n a body w = .ret (body', w', ev, g) →
    (g = none ∧ ∃ msg before after resp onOk onErr, w'.got = w.got ++ msg ∧ bodyReads ev = before ++ after ∧ a.afterReads before = some (.send resp onOk onErr) ∧
      OneReply m msg resp.status (seenFields resp.headers resp.length (env.now n)) (sentBody resp.length (rem resp.body))) ∨
    ∃ gl, g = some gl ∧ gl.Legible m v ∧ w' = w ∧ a.afterReads (bodyReads ev) = some (.glitch gl) := by
  induction a with
  | read k next ih =>
    intro body body' w w' ev g ho hr h
    simp only [runProg] at h
    obtain ⟨⟨b1, p⟩, h1, h2⟩ := Run.bind_eq_ret.1 h
    dsimp only at h2
    obtain ⟨⟨b2, w2, ev2, g2⟩, h3, h4⟩ := Run.bind_eq_ret.1 h2
    simp only [Run.ret.injEq, Prod.mk.injEq] at h4
    obtain ⟨rfl, rfl, rfl, rfl⟩ := h4
    rcases ih p _ _ _ _ _ _ (ho p) hr h3 with ⟨k1, msg, before, after, resp, onOk, onErr, k2, k3, k4, k5⟩ | ⟨gl, k1, k2, k3, k4⟩
    · refine .inl ⟨k1, msg, (k, p) :: before, after, resp, onOk, onErr, k2, ?_, ?_, k5⟩
      · simp only [bodyReads, k3, List.cons_append]
      · simp only [Prog.afterReads, if_true]; exact k4
    · refine .inr ⟨gl, k1, k2, k3, ?_⟩
      simp only [bodyReads, Prog.afterReads, if_true]
      exact k4
  | send resp onOk onErr =>
    intro body body' w w' ev g ho hr h
    obtain ⟨o1, o2, o3⟩ := ho
    simp only [runProg] at h
    obtain ⟨⟨w1, r⟩, h1, h2⟩ := Run.bind_eq_ret.1 h
    obtain ⟨amt, msg, rfl, k1, k2⟩ := sendFully_legible hx o1 hc o2 hr h1
    dsimp only at h2
    obtain ⟨⟨b2, ev2, g2⟩, h3, h4⟩ := Run.bind_eq_ret.1 h2
    simp only [Run.ret.injEq, Prod.mk.injEq] at h4
    obtain ⟨rfl, rfl, rfl, rfl⟩ := h4
    exact .inl ⟨runAfter_quiet _ _ _ _ _ (o3 amt) h3, msg, [], _, resp, onOk, onErr, k1, rfl, rfl, k2⟩
  | sendFor => intro body body' w w' ev g ho; exact ho.elim
  | glitch gl =>
    intro body body' w w' ev g ho hr h
    simp only [runProg, Run.ret.injEq, Prod.mk.injEq] at h
    obtain ⟨rfl, rfl, rfl, rfl⟩ := h
    exact .inr ⟨gl, rfl, ho, rfl, rfl⟩

end

theorem oneReply_error {m : Bytes} {st : StatusCode} {now : Bytes} (h1 : 100 ≤ st) (h2 : st < 1000) (hn : ∀ b ∈ now, valueByte b) :
    OneReply m (errorResponse st now) st (seenFields [] (some 0) now) [] :=
  oneReply_sent (len := some 0) (body := []) h1 h2 ⟨by decide, by decide⟩ hn (by simp) (by simp) (fun _ => rfl) (by simp [IsResponse, errorResponse])

theorem oneReply_continue {m : Bytes} : OneReply m continueResponse 100 [] [] := by
  refine .bodiless ⟨[], ascii "100", 32 :: (ascii "Continue" ++ [13, 10]), [13, 10], ?_, .nil, by omega, rfl, by decide, by decide, .inr ⟨_, _, rfl, ?_, .inl rfl⟩, .blank (.inl rfl)⟩ (.inr (.inl (by decide)))
  · decide
  · intro b hb
    have : ((ascii "Continue").all fun b => headerValueByte b) = true := by decide
    exact valueByte_of (List.all_eq_true.1 this b hb)

end Tophat

/-! ## The timer -/

namespace Tophat

section
variable {ρ : Type} [AsyncRead ρ] {σ : Type} [AsyncBufRead σ]

theorem awaitDecode_clock {env : Env} {opts : ServerOpts} {fuel : Nat} {pool : Pool} (n : Nat) : ∀ {f : DecFut ρ} {w w' : Writer} {clock clock' : List Bool} {a : Await ρ},
    awaitDecode env opts fuel pool n f w clock = .ret (w', clock', a) → clock' <:+ clock := by
  induction n with
  | zero => intro f w w' clock clock' a h; simp [awaitDecode] at h
  | succ n ih =>
    intro f w w' clock clock' a h
    simp only [awaitDecode] at h
    obtain ⟨⟨w1, p⟩, h1, h2⟩ := Run.bind_eq_ret.1 h
    cases p with
    | ready r =>
      simp only [Run.ret.injEq, Prod.mk.injEq] at h2
      rw [← h2.2.1]; exact List.suffix_refl _
    | pending f1 =>
      dsimp only at h2
      split at h2
      · split at h2
        · simp only [Run.ret.injEq, Prod.mk.injEq] at h2
          rw [← h2.2.1]; exact List.suffix_cons _ _
        · exact (ih h2).trans (List.suffix_cons _ _)
        · exact ih h2
      · exact ih h2

theorem acceptStep_clock {env : Env} {opts : ServerOpts} {endpoint : Endpoint σ} {fuel n : Nat} {c c' : Conn ρ} {ev : List Event} {res : Option AcceptRes}
    (h : acceptStep env opts endpoint fuel n c = .ret (c', ev, res)) : c'.clock <:+ c.clock := by
  unfold acceptStep at h
  obtain ⟨⟨w, clock, a⟩, h1, h2⟩ := Run.bind_eq_ret.1 h
  have g := awaitDecode_clock _ h1
  cases a with
  | timedOut io =>
    simp only [Run.ret.injEq, Prod.mk.injEq] at h2
    obtain ⟨rfl, rfl, rfl⟩ := h2
    exact g
  | ready r =>
    cases r with
    | none io =>
      simp only [Run.ret.injEq, Prod.mk.injEq] at h2
      obtain ⟨rfl, rfl, rfl⟩ := h2
      exact g
    | fail f io =>
      dsimp only at h2
      obtain ⟨⟨w', ev'⟩, h3, h4⟩ := Run.bind_eq_ret.1 h2
      simp only [Run.ret.injEq, Prod.mk.injEq] at h4
      obtain ⟨rfl, rfl, rfl⟩ := h4
      exact g
    | request req =>
      dsimp only at h2
      obtain ⟨⟨body, w1, ev1, gl⟩, h3, h4⟩ := Run.bind_eq_ret.1 h2
      dsimp only at h4
      obtain ⟨⟨w2, ev2⟩, h5, h6⟩ := Run.bind_eq_ret.1 h4
      simp only [Run.ret.injEq, Prod.mk.injEq] at h6
      obtain ⟨rfl, rfl, rfl⟩ := h6
      exact g

end

end Tophat
