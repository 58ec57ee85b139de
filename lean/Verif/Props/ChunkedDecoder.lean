import Verif.Proofs.DecoderMain
import Verif.Proofs.Copy
import Verif.Props.ServerEncode
/-!
# Properties C12–C19: reading a chunked body

`polls (ChunkedDecoder.new inner pool) ks` reads a chunked body once with a buffer of each of the
lengths `ks`, until the first error.  `inner` is any transport obeying the `AsyncRead` contract:
`rem inner` are the bytes it delivers (in whatever fragments, with whatever `Pending`s in between)
and `fin inner` says whether it then ends or fails.  `pool` is any behaviour of the buffer pool.
`received ps` are the bytes handed to the application, `d'.sent` what was put into the trailer channel.
-/

set_option linter.unusedSectionVars false
set_option synthInstance.maxSize 1000

namespace Tophat
open Spec Dec

variable {ρ : Type} [AsyncRead ρ] [LawfulRead ρ]

/-! ## Concrete material -/

/-- A pool that hands out zeroed blocks and grows them exactly. -/
def zeroPool : Pool := ⟨fun _ => List.replicate initialCapacity 0, fun c => c + 1024, 0⟩

theorem zeroPool_ok : zeroPool.Ok := ⟨fun _ => List.length_replicate, fun c => Nat.le_refl _⟩

/-- `n` times the letter a. -/
def as (n : Nat) : Bytes := List.replicate n 97

theorem as_length (n : Nat) : (as n).length = n := List.length_replicate

/-- Two chunks and a trailer section, followed by bytes of a next message. -/
def demoWire : Bytes := ascii "5;ext\r\nhello\r\n6 \r\n world\r\n0\r\nX-T: 1\r\nx-t: 2\r\n\r\nGET"

/-- `demoWire` in fragments. -/
def demoFrags : Script :=
  [.data (demoWire.take 9), .pending, .data ((demoWire.drop 9).take 20), .pending, .data (demoWire.drop 29)]

/-- What an application sees of it, or what went wrong. -/
def seen (inner : Script) (ks : List Nat) : Run (List RPoll × List HeaderMap) := do
  let (d, ps) ← polls (ChunkedDecoder.new inner zeroPool) ks
  .ret (ps, d.sent)

theorem seen_ret {inner : Script} {ks : List Nat} {ps : List RPoll} {ts : List HeaderMap}
    (h : seen inner ks = .ret (ps, ts)) :
    ∃ d', polls (ChunkedDecoder.new inner zeroPool) ks = .ret (d', ps) ∧ d'.sent = ts := by
  unfold seen at h
  cases hp : polls (ChunkedDecoder.new inner zeroPool) ks with
  | ret x => obtain ⟨d, ps⟩ := x; rw [hp] at h; simp at h; exact ⟨d, by rw [h.1], h.2⟩
  | panic => rw [hp] at h; simp at h
  | diverge => rw [hp] at h; simp at h

theorem demo_seen : seen demoFrags [3, 3, 8, 8, 8, 8] = .ret
    ([.data (ascii "he"), .pending, .data (ascii "llo"), .data (ascii " world"), .pending, .data []],
     [[(ascii "x-t", [ascii "1", ascii "2"])]]) := by decide +kernel

/-- `demoWire` holds a complete chunked body. -/
theorem demo_body : Body (ascii "5;ext\r\nhello\r\n6 \r\n world\r\n0\r\nX-T: 1\r\nx-t: 2\r\n\r\n") (ascii "hello world")
    [(ascii "X-T", ascii "1"), (ascii "x-t", ascii "2")] := by
  refine ⟨ascii "5;ext\r\nhello\r\n6 \r\n world\r\n", ascii "0\r\n", ascii "X-T: 1\r\nx-t: 2\r\n\r\n", by decide, ?_, lastLine, ?_⟩
  · have h1 : SizeLine (ascii "5;ext\r\n") (ascii "hello").length :=
      ⟨ascii "5", [], ascii ";ext", by decide, by decide, by decide, by simp, .inr ⟨ascii "ext", by decide, by decide⟩⟩
    have h2 : SizeLine (ascii "6 \r\n") (ascii " world").length :=
      ⟨ascii "6", [32], [], by decide, by decide, by decide, by simp, .inl rfl⟩
    have := Frames.cons h1 (by decide) (.cons h2 (by decide) .nil)
    have e : ascii "5;ext\r\n" ++ (ascii "hello" ++ 13 :: 10 :: (ascii "6 \r\n" ++ (ascii " world" ++ [13, 10]))) =
      ascii "5;ext\r\nhello\r\n6 \r\n world\r\n" := by decide
    have e2 : ascii "hello" ++ (ascii " world" ++ []) = ascii "hello world" := by decide
    rw [e, e2] at this
    exact this
  · have h1 : FieldLine (ascii "X-T: 1\r\n") (ascii "X-T") (ascii "1") :=
      ⟨[32], [13, 10], by decide, by decide, by unfold tokenByte; decide, by simp, by unfold valueByte; decide, by decide, .inl rfl⟩
    have h2 : FieldLine (ascii "x-t: 2\r\n") (ascii "x-t") (ascii "2") :=
      ⟨[32], [13, 10], by decide, by decide, by unfold tokenByte; decide, by simp, by unfold valueByte; decide, by decide, .inl rfl⟩
    have := FieldSection.field h1 (.field h2 (.blank (e := [13, 10]) (.inl rfl)))
    have e : ascii "X-T: 1\r\n" ++ (ascii "x-t: 2\r\n" ++ [13, 10]) = ascii "X-T: 1\r\nx-t: 2\r\n\r\n" := by decide
    rw [e] at this
    exact this

/-! ## C12 -/

/-- **C12.** Whatever the transport delivers, and however, the bytes read so far are carried by the
chunks at the beginning of the received stream: the data of complete chunks and a part of the data
of the next one, in order, and nothing else. -/
theorem C12_prefix {inner : ρ} {pool : Pool} (hp : pool.Ok) {ks : List Nat} (hk : ∀ k ∈ ks, 0 < k)
    {d' : ChunkedDecoder ρ} {ps : List RPoll} (h : polls (ChunkedDecoder.new inner pool) ks = .ret (d', ps)) :
    Carries (rem inner) (received ps) := by
  obtain ⟨g, hi, _⟩ := run_inv hp hk h
  exact hi.carries

/-- **C12**: the carried bytes are determined by the stream. -/
theorem C12_determined {s x y : Bytes} (hx : Carries s x) (hy : Carries s y) : x <+: y ∨ y <+: x := hx.comparable hy

/-- **C12** for a stream that begins with a complete body: what is read is a prefix of its payload. -/
theorem C12_of_message {inner : ρ} {pool : Pool} (hp : pool.Ok) {ks : List Nat} (hk : ∀ k ∈ ks, 0 < k)
    {d' : ChunkedDecoder ρ} {ps : List RPoll} (h : polls (ChunkedDecoder.new inner pool) ks = .ret (d', ps))
    {b p x : Bytes} {fs : List (Bytes × Bytes)} (hb : Body b p fs) (hs : rem inner = b ++ x) : received ps <+: p :=
  hb.total (r := x) _ (hs ▸ C12_prefix hp hk h)

example : ∃ d' ps, polls (ChunkedDecoder.new demoFrags zeroPool) [3, 3, 8] = .ret (d', ps) ∧
    received ps = ascii "hello" ∧ rem demoFrags = demoWire ∧ ∀ k ∈ [3, 3, 8], 0 < k := by
  have : seen demoFrags [3, 3, 8] = .ret ([.data (ascii "he"), .pending, .data (ascii "llo")], []) := by decide +kernel
  obtain ⟨d', h, _⟩ := seen_ret this
  exact ⟨d', _, h, by decide, by decide, by decide⟩

/-! ## C13 -/

/-- A message whose second size line straddles the 4096th byte. -/
def straddling : Bytes := ascii "FF8\r\n" ++ (as 4088 ++ (crlf ++ ascii "5\r\nhello\r\n0\r\n\r\n"))

/-- Number of bytes received and whether the end was reported. -/
def summary (inner : Script) (ks : List Nat) : Run (Nat × Bool) := do
  let (_, ps) ← polls (ChunkedDecoder.new inner zeroPool) ks
  .ret ((received ps).length, ps.any fun p => match p with | .data [] => true | _ => false)

theorem straddling_seen : ∃ d' ps, polls (ChunkedDecoder.new ([.data straddling] : Script) zeroPool) [8192, 8192] = .ret (d', ps) ∧
    (received ps).length = 4088 ∧ SawEof ps := by
  have key : summary [.data straddling] [8192, 8192] = .ret (4088, true) := by decide +kernel
  unfold summary at key
  cases hp : polls (ChunkedDecoder.new ([.data straddling] : Script) zeroPool) [8192, 8192] with
  | panic => rw [hp] at key; simp at key
  | diverge => rw [hp] at key; simp at key
  | ret x =>
    obtain ⟨d, ps⟩ := x
    rw [hp] at key
    simp only [Run.ret_bind, Run.ret.injEq, Prod.mk.injEq, List.any_eq_true] at key
    obtain ⟨h1, p, h2, h3⟩ := key
    refine ⟨d, ps, rfl, h1, ?_⟩
    split at h3
    · exact h2
    · cases h3

/-- **C13 is false of the code**: a complete valid message of 4110 bytes, delivered by the transport
without any failure; the application is told that the body has ended, and the last five of its 4093 bytes
are missing. -/
theorem C13_truncates : ∃ (p : Bytes) (d' : ChunkedDecoder Script) (ps : List RPoll),
    Body straddling p [] ∧ rem ([.data straddling] : Script) = straddling ∧ fin ([.data straddling] : Script) = none ∧
    polls (ChunkedDecoder.new [.data straddling] zeroPool) [8192, 8192] = .ret (d', ps) ∧
    SawEof ps ∧ received ps ≠ p := by
  obtain ⟨d', ps, h, hlen, heof⟩ := straddling_seen
  refine ⟨as 4088 ++ ascii "hello", d', _, ?_, by simp only [LawfulRead.rem, Script.bytes, List.append_nil],
    by simp [LawfulRead.fin, Script.ending], h, heof, ?_⟩
  · have h1 : SizeLine (ascii "FF8\r\n") (as 4088).length :=
      ⟨ascii "FF8", [], [], by decide, by rw [as_length]; decide, by decide, by simp, .inl rfl⟩
    have h2 : SizeLine (ascii "5\r\n") (ascii "hello").length :=
      ⟨ascii "5", [], [], by decide, by decide, by decide, by simp, .inl rfl⟩
    have := Frames.cons h1 (fun h => absurd (congrArg List.length h) (by rw [as_length]; decide)) (.cons h2 (by decide) .nil)
    refine ⟨ascii "FF8\r\n" ++ (as 4088 ++ 13 :: 10 :: (ascii "5\r\n" ++ (ascii "hello" ++ [13, 10]))), [48, 13, 10], [13, 10],
      ?_, ?_, lastLine, emptySection⟩
    rotate_left
    · have e : as 4088 ++ ascii "hello" = as 4088 ++ (ascii "hello" ++ []) := by simp
      rw [e]; exact this
    · have e : crlf ++ ascii "5\r\nhello\r\n0\r\n\r\n" = 13 :: 10 :: (ascii "5\r\n" ++ (ascii "hello" ++ 13 :: 10 :: [])) ++ ([48, 13, 10] ++ [13, 10]) := by decide
      rw [straddling, e]; simp
  · intro h
    have := congrArg List.length h
    rw [hlen, List.length_append, as_length] at this
    exact absurd this (by decide)

/-- **C13 (partial).** For a complete message whose framing fits into the decoder's buffer
(`Within 0 4096 w p`, see `Spec/Within.lean`: the size lines and line ends of the chunks, and the data
of the chunks shorter than 4096 bytes, take at most 4096 bytes together) an end of stream or an error
is reported only after the whole payload, and the whole payload arrives within `p.length + meas inner + 1`
reads (`meas inner` bounds the number of `Pending`s of the transport).  Missing: messages whose
framing does not fit - for them the statement is false (`C13_truncates`). -/
theorem C13_payload_partial {inner : ρ} {pool : Pool} (hp : pool.Ok) {ks : List Nat} (hk : ∀ k ∈ ks, 0 < k)
    {d' : ChunkedDecoder ρ} {ps : List RPoll} (h : polls (ChunkedDecoder.new inner pool) ks = .ret (d', ps))
    {w l t x p : Bytes} {fs : List (Bytes × Bytes)} (hw : Within 0 4096 w p) (hl : SizeLine l 0)
    (ht : FieldSection t fs) (hn : fs.length ≤ 16) (hs : rem inner = w ++ (l ++ (t ++ x))) :
    (SawEof ps ∨ (∃ e, .err e ∈ ps) → received ps = p) ∧
    (p.length + meas inner < ks.length → received ps = p) := by
  obtain ⟨d1, ps1, h1, ho⟩ := polls_spec ks _ hk (decInv_new inner pool hp)
  have hpre := C12_of_message hp hk h ⟨w, l, t, rfl, hw.frames, hl, ht⟩ (x := x) (by simpa using hs)
  rw [h] at h1
  injection h1 with h1; injection h1 with e1 e2
  subst e1; subst e2
  have hfit : Fit ⟨p, l, t, x, fs, 0, hl, ht, hn, .inl rfl⟩ (abs (ChunkedDecoder.new inner pool)) [] := by
    have hwin : (abs (ChunkedDecoder.new inner pool)).win = [] := by simp [abs, conf, ChunkedDecoder.new, window]
    have hsz : (abs (ChunkedDecoder.new inner pool)).size = 4096 := by
      simp [abs, conf, ChunkedDecoder.new, Pool.alloc, hp.len, initialCapacity]
    have hcap : (abs (ChunkedDecoder.new inner pool)).cap = 4096 := by
      simp [abs, conf, ChunkedDecoder.new, Pool.alloc, initialCapacity]
    refine ⟨?_, by omega, .inl rfl, .inr (.inr ⟨hsz, hcap⟩), ?_⟩
    · rw [hwin, hsz]; simp [abs, conf, ChunkedDecoder.new]
    · show FitSt _ _ _
      simp only [FitSt, abs, conf, ChunkedDecoder.new]
      exact ⟨4096, w, p, by simpa [window, Msg.E] using hs, hw, rfl, .inr ⟨hsz, hcap, by simp⟩⟩
  have key : SawEof ps ∨ (∃ e, .err e ∈ ps) → received ps = p := by
    intro hend
    cases ho with
    | going g1 g2 g3 g4 g5 g6 =>
      rcases hend with hend | ⟨e, he⟩
      · have := (hfit.steps g1).st
        have hd : (abs d').st = .done := g5 hend
        simp only [FitSt, hd] at this
        simpa using this.1
      · exact absurd he (g3 e)
    | failed g1 g2 g3 g4 g5 g6 =>
      have := ((hfit.steps g1).fails g2).1
      simpa [received_append, received] using this
  refine ⟨key, fun hlen => key ?_⟩
  cases ho with
  | going g1 g2 g3 g4 g5 g6 =>
    by_cases hsaw : SawEof ps
    · exact .inl hsaw
    · have := g6 hsaw
      have := hpre.length_le
      rw [new_meas] at *
      omega
  | failed => exact .inr ⟨_, List.mem_append_right _ (List.mem_singleton.2 rfl)⟩

/-- **C13 (partial)** for a body that consists of one chunk, however long: nothing is lost. -/
theorem C13_one_chunk_partial {inner : ρ} {pool : Pool} (hp : pool.Ok) {ks : List Nat} (hk : ∀ k ∈ ks, 0 < k)
    {d' : ChunkedDecoder ρ} {ps : List RPoll} (h : polls (ChunkedDecoder.new inner pool) ks = .ret (d', ps))
    {c l t x p : Bytes} {fs : List (Bytes × Bytes)} (hc : SizeLine c p.length) (hne : p ≠ []) (hcl : c.length ≤ 4096)
    (hl : SizeLine l 0) (ht : FieldSection t fs) (hn : fs.length ≤ 16)
    (hs : rem inner = c ++ (p ++ (crlf ++ (l ++ (t ++ x))))) :
    (SawEof ps ∨ (∃ e, .err e ∈ ps) → received ps = p) ∧
    (p.length + meas inner < ks.length → received ps = p) := by
  have hw : Within 0 4096 (c ++ (p ++ 13 :: 10 :: [])) (p ++ []) := .cons hc hne hcl (.nil (Nat.zero_le _))
  rw [List.append_nil] at hw
  exact C13_payload_partial hp hk h hw hl ht hn (by simpa [crlf] using hs)

/-- **C13 (partial)** and **C16 (partial)**: if there is also room for the last chunk and the trailer
section - in particular if the whole message is not longer than 4096 bytes - the body ends cleanly (an
error can only come after the end), with the whole payload and with the trailers delivered. -/
theorem C13_complete_partial {inner : ρ} {pool : Pool} (hp : pool.Ok) {ks : List Nat} (hk : ∀ k ∈ ks, 0 < k)
    {d' : ChunkedDecoder ρ} {ps : List RPoll} (h : polls (ChunkedDecoder.new inner pool) ks = .ret (d', ps))
    {w l t x p : Bytes} {fs : List (Bytes × Bytes)} (hw : Within (l.length + t.length) 4096 w p) (hl : SizeLine l 0)
    (ht : FieldSection t fs) (hn : fs.length ≤ 16) (hs : rem inner = w ++ (l ++ (t ++ x))) :
    ((∃ e, .err e ∈ ps) → SawEof ps) ∧
    (SawEof ps → received ps = p ∧ ∃ m, d'.sent = [m] ∧ MapOf m fs) ∧
    (p.length + meas inner < ks.length → SawEof ps) := by
  obtain ⟨d1, ps1, h1, ho⟩ := polls_spec ks _ hk (decInv_new inner pool hp)
  have hpre := C12_of_message hp hk h ⟨w, l, t, rfl, hw.frames, hl, ht⟩ (x := x) (by simpa using hs)
  rw [h] at h1
  injection h1 with h1; injection h1 with e1 e2
  subst e1; subst e2
  have hpos := hl.length
  have hfit : Fit ⟨p, l, t, x, fs, l.length + t.length, hl, ht, hn, .inr rfl⟩ (abs (ChunkedDecoder.new inner pool)) [] := by
    have hwin : (abs (ChunkedDecoder.new inner pool)).win = [] := by simp [abs, conf, ChunkedDecoder.new, window]
    have hsz : (abs (ChunkedDecoder.new inner pool)).size = 4096 := by
      simp [abs, conf, ChunkedDecoder.new, Pool.alloc, hp.len, initialCapacity]
    have hcap : (abs (ChunkedDecoder.new inner pool)).cap = 4096 := by
      simp [abs, conf, ChunkedDecoder.new, Pool.alloc, initialCapacity]
    refine ⟨?_, by omega, .inl rfl, .inr (.inr ⟨hsz, hcap⟩), ?_⟩
    · rw [hwin, hsz]; simp [abs, conf, ChunkedDecoder.new]
    · show FitSt _ _ _
      simp only [FitSt, abs, conf, ChunkedDecoder.new]
      exact ⟨4096, w, p, by simpa [window, Msg.E] using hs, hw, rfl, .inr ⟨hsz, hcap, by simp⟩⟩
  have herr : (∃ e, .err e ∈ ps) → SawEof ps := by
    rintro ⟨e, he⟩
    cases ho with
    | going g1 g2 g3 g4 g5 g6 => exact absurd he (g3 e)
    | failed g1 g2 g3 g4 g5 g6 =>
      rename_i qs e' g'
      apply Classical.byContradiction
      intro hn'
      have hn2 : ¬ SawEof qs := fun hq => hn' (by unfold SawEof at *; simp [hq])
      have := ((hfit.steps g1).fails g2).2
      rcases this with this | this
      · simp only at this; omega
      · exact absurd (g6 hn2 this) (by simp [abs, conf, ChunkedDecoder.new])
  refine ⟨herr, ?_, ?_⟩
  · intro hsaw
    have fin : ∀ {g : G} {D : Bytes} {s : List HeaderMap}, g.st = .done → s = g.sent →
        Fit ⟨p, l, t, x, fs, l.length + t.length, hl, ht, hn, .inr rfl⟩ g D → D = p ∧ ∃ m, s = [m] ∧ MapOf m fs := by
      intro g D s hd hs hf
      have := hf.st
      simp only [FitSt, hd] at this
      refine ⟨this.1, _, hs.trans (this.2.resolve_left (by omega)), fieldMap_mapOf fs⟩
    cases ho with
    | going g1 g2 g3 g4 g5 g6 => exact fin (g := abs d') (g5 hsaw) rfl (by simpa using hfit.steps g1)
    | failed g1 g2 g3 g4 g5 g6 =>
      rename_i qs e' g'
      have hq : SawEof qs := by
        unfold SawEof at hsaw
        simp only [List.mem_append, List.mem_singleton, reduceCtorEq, or_false] at hsaw
        exact hsaw
      exact fin (g5 hq) g3 (by simpa [received_append, received] using hfit.steps g1)
  · intro hlen
    cases ho with
    | going g1 g2 g3 g4 g5 g6 =>
      apply Classical.byContradiction
      intro hsaw
      have := g6 hsaw
      have := hpre.length_le
      rw [new_meas] at *
      omega
    | failed => exact herr ⟨_, List.mem_append_right _ (List.mem_singleton.2 rfl)⟩

/-- **C13 (partial)**, the same in other words. -/
theorem C13_roomy_partial {inner : ρ} {pool : Pool} (hp : pool.Ok) {ks : List Nat} (hk : ∀ k ∈ ks, 0 < k)
    {d' : ChunkedDecoder ρ} {ps : List RPoll} (h : polls (ChunkedDecoder.new inner pool) ks = .ret (d', ps))
    {b x p : Bytes} {fs : List (Bytes × Bytes)} (hb : Roomy b p fs) (hn : fs.length ≤ 16) (hs : rem inner = b ++ x) :
    ((∃ e, .err e ∈ ps) → SawEof ps) ∧
    (SawEof ps → received ps = p ∧ ∃ m, d'.sent = [m] ∧ MapOf m fs) ∧
    (p.length + meas inner < ks.length → SawEof ps) := by
  obtain ⟨w, l, t, rfl, hw, hl, ht⟩ := hb
  exact C13_complete_partial hp hk h hw hl ht hn (by simpa using hs)

/-- **C13 (partial)** for every message of at most 4096 bytes. -/
theorem C13_small_partial {inner : ρ} {pool : Pool} (hp : pool.Ok) {ks : List Nat} (hk : ∀ k ∈ ks, 0 < k)
    {d' : ChunkedDecoder ρ} {ps : List RPoll} (h : polls (ChunkedDecoder.new inner pool) ks = .ret (d', ps))
    {b x p : Bytes} {fs : List (Bytes × Bytes)} (hb : Body b p fs) (hlen : b.length ≤ 4096) (hn : fs.length ≤ 16)
    (hs : rem inner = b ++ x) :
    ((∃ e, .err e ∈ ps) → SawEof ps) ∧
    (SawEof ps → received ps = p ∧ ∃ m, d'.sent = [m] ∧ MapOf m fs) ∧
    (p.length + meas inner < ks.length → SawEof ps) := by
  exact C13_roomy_partial hp hk h (roomy_of_length hb hlen) hn hs

/-- The hypotheses are met by `demoWire`, in three fragments, with reads of 3 and 8 bytes. -/
example : ∃ b x p fs, Body b p fs ∧ b.length ≤ 4096 ∧ fs.length ≤ 16 ∧ rem demoFrags = b ++ x ∧ p = ascii "hello world" :=
  ⟨_, ascii "GET", _, _, demo_body, by decide, by decide, by decide, rfl⟩

/-- The hypotheses of `C13_roomy_partial` are met by a chunk of 65536 bytes. -/
example : Roomy (ascii "10000\r\n" ++ (List.replicate 65536 7 ++ (crlf ++ (ascii "0\r\n" ++ ascii "\r\n")))) (List.replicate 65536 7) [] :=
  roomy_one_chunk ⟨ascii "10000", [], [], by decide, by rw [List.length_replicate]; decide, by decide, by simp, .inl rfl⟩ (by rw [List.length_replicate]; decide)
    ⟨ascii "0", [], [], by decide, by decide, by decide, by simp, .inl rfl⟩ (.blank (.inl rfl)) (by decide)

/-- The hypotheses of `C13_one_chunk_partial` are met by a chunk of 65536 bytes. -/
example : SizeLine (ascii "10000\r\n") (List.replicate 65536 (7 : UInt8)).length :=
  ⟨ascii "10000", [], [], by decide, by rw [List.length_replicate]; decide, by decide, by simp, .inl rfl⟩

/-! ## C14 -/

/-- **C14 is false of the code**: the connection ends in the middle of the first chunk, and the
application is told that the body has ended normally. -/
theorem C14_truncation_unreported : ∃ (d' : ChunkedDecoder Script),
    (∀ p fs x, ¬ Body (ascii "a\r\nhello" ++ x) p fs ∨ x ≠ []) ∧
    polls (ChunkedDecoder.new [.data (ascii "a\r\nhello")] zeroPool) [16, 16] =
      .ret (d', [.data (ascii "hello"), .data []]) ∧ d'.sent = [] := by
  have : seen [.data (ascii "a\r\nhello")] [16, 16] = .ret ([.data (ascii "hello"), .data []], []) := by decide +kernel
  obtain ⟨d', h, hs⟩ := seen_ret this
  refine ⟨d', ?_, h, hs⟩
  intro p fs x
  by_cases hx : x = []
  · left
    subst hx
    rw [List.append_nil]
    intro hb
    have hsz : SizeLine (ascii "a\r\n") 10 := ⟨ascii "a", [], [], by decide, by decide, by decide, by simp, .inl rfl⟩
    obtain ⟨w, l, t, e, hf, hl, ht⟩ := hb
    have e' : ascii "a\r\nhello" = ascii "a\r\n" ++ ascii "hello" := by decide
    rw [e'] at e
    cases hf with
    | nil =>
      obtain ⟨h1, _, _⟩ := line_det hsz hl (by simpa using e)
      omega
    | @cons l' d w p hl' hd hf =>
      obtain ⟨h1, h2, _⟩ := line_det hsz hl' (y := d ++ (13 :: 10 :: (w ++ (l ++ t)))) (by simpa using e)
      have := congrArg List.length h2
      simp [ascii] at this
      omega
  · exact .inr hx

/-- **C14 (partial).** If the received stream does not begin with a complete chunked body, no trailers
are ever delivered; so an application that waits for the trailers can tell.  Missing: an error from
`read` (`C14_truncation_unreported` shows there is none). -/
theorem C14_no_trailers_partial {inner : ρ} {pool : Pool} (hp : pool.Ok) {ks : List Nat} (hk : ∀ k ∈ ks, 0 < k)
    {d' : ChunkedDecoder ρ} {ps : List RPoll} (h : polls (ChunkedDecoder.new inner pool) ks = .ret (d', ps))
    (ht : ∀ b p fs, b <+: rem inner → ¬ Body b p fs) : d'.sent = [] := by
  obtain ⟨g, ⟨c, hc, hr⟩, hs⟩ := run_inv hp hk h
  rw [hs]
  have hb : ∀ fs, ¬ Body c (received ps) fs := fun fs => ht _ _ _ (by rw [hc]; exact List.prefix_append _ _)
  cases hst : g.st with
  | init => rw [hst] at hr; exact hr.2
  | chunk => rw [hst] at hr; obtain ⟨_, _, _, _, _, _, _, _, _, _, h⟩ := hr; exact h
  | chunkEnd => rw [hst] at hr; obtain ⟨_, _, _, _, _, _, _, _, _, h⟩ := hr; exact h
  | trailer => rw [hst] at hr; obtain ⟨_, _, _, _, _, h⟩ := hr; exact h
  | trailerDone => rw [hst] at hr; obtain ⟨fs, h, _⟩ := hr; exact absurd h (hb fs)
  | trailerSending => rw [hst] at hr; obtain ⟨fs, h, _⟩ := hr; exact absurd h (hb fs)
  | done =>
    rw [hst] at hr
    rcases hr with ⟨_, h⟩ | ⟨fs, h, _⟩
    · exact h
    · exact absurd h (hb fs)

/-! ## C16 -/

/-- **C16.** Trailers are delivered at most once; if they are, the received stream begins with a
complete chunked body, all of whose payload has been handed out, and the trailers are exactly its
trailer fields. -/
theorem C16_trailers {inner : ρ} {pool : Pool} (hp : pool.Ok) {ks : List Nat} (hk : ∀ k ∈ ks, 0 < k)
    {d' : ChunkedDecoder ρ} {ps : List RPoll} (h : polls (ChunkedDecoder.new inner pool) ks = .ret (d', ps)) :
    d'.sent = [] ∨ ∃ b fs m, b <+: rem inner ∧ Body b (received ps) fs ∧ fs.length ≤ 16 ∧ d'.sent = [m] ∧ MapOf m fs := by
  obtain ⟨g, ⟨c, hc, hr⟩, hs⟩ := run_inv hp hk h
  rw [hs]
  cases hst : g.st with
  | init => rw [hst] at hr; exact .inl hr.2
  | chunk => rw [hst] at hr; obtain ⟨_, _, _, _, _, _, _, _, _, _, h⟩ := hr; exact .inl h
  | chunkEnd => rw [hst] at hr; obtain ⟨_, _, _, _, _, _, _, _, _, h⟩ := hr; exact .inl h
  | trailer => rw [hst] at hr; obtain ⟨_, _, _, _, _, h⟩ := hr; exact .inl h
  | trailerDone => rw [hst] at hr; obtain ⟨fs, _, _, _, h⟩ := hr; exact .inl h
  | trailerSending => rw [hst] at hr; obtain ⟨fs, _, _, _, h⟩ := hr; exact .inl h
  | done =>
    rw [hst] at hr
    rcases hr with ⟨_, h⟩ | ⟨fs, h1, h2, h3⟩
    · exact .inl h
    · exact .inr ⟨c, fs, _, by rw [hc]; exact List.prefix_append _ _, h1, h2, h3, fieldMap_mapOf fs⟩

/-- **C16**: payload, fields and end of the body are determined by the stream. -/
theorem C16_determined {b b' p p' r r' : Bytes} {fs fs' : List (Bytes × Bytes)} (h : Body b p fs) (h' : Body b' p' fs')
    (hn : fs.length ≤ 16) (hn' : fs'.length ≤ 16) (e : b ++ r = b' ++ r') : p = p' ∧ fs = fs' ∧ r = r' :=
  h.unique h' hn hn' e

/-- Trailers of `demoWire`. -/
example : ∃ d' ps, polls (ChunkedDecoder.new demoFrags zeroPool) [3, 3, 8, 8, 8, 8] = .ret (d', ps) ∧
    d'.sent = [[(ascii "x-t", [ascii "1", ascii "2"])]] := by
  obtain ⟨d', h, hs⟩ := seen_ret demo_seen
  exact ⟨d', _, h, hs⟩

/-! ## C15 -/

/-- **C15.** If the stream is malformed right behind the data `p`, nothing beyond `p` is ever read and
no trailers are ever delivered. -/
theorem C15_nothing_beyond {inner : ρ} {pool : Pool} (hp : pool.Ok) {ks : List Nat} (hk : ∀ k ∈ ks, 0 < k)
    {d' : ChunkedDecoder ρ} {ps : List RPoll} (h : polls (ChunkedDecoder.new inner pool) ks = .ret (d', ps))
    {p : Bytes} (hm : Malformed (rem inner) p) : received ps <+: p ∧ d'.sent = [] := by
  refine ⟨hm.total _ (C12_prefix hp hk h), ?_⟩
  rcases C16_trailers hp hk h with h | ⟨b, fs, m, ⟨r, hr⟩, hb, hn, _⟩
  · exact h
  · exact absurd hr.symm (hm.no_body hb hn)

/-- **C15 (partial).** A stream that is malformed right behind the data `p`, where the framing in front of the
malformed place and the malformed bytes take at most 4096 bytes, is never taken for a complete body, whatever
follows: no end of stream is reported, an error is one of the three decoding errors and comes after all the data in
front of the malformed place, and it does come within `p.length + meas inner + 1` reads.  Missing: more framing, where
a premature end of stream can come first (`C15_refuted`). -/
theorem C15_error_partial {inner : ρ} {pool : Pool} (hp : pool.Ok) {ks : List Nat} (hk : ∀ k ∈ ks, 0 < k)
    {d' : ChunkedDecoder ρ} {ps : List RPoll} (h : polls (ChunkedDecoder.new inner pool) ks = .ret (d', ps))
    {p : Bytes} (hm : BrokenWithin 4096 (rem inner) p) :
    ¬ SawEof ps ∧
    (∀ e, .err e ∈ ps → received ps = p ∧ (e = .chunkSize ∨ e = .invalidData ∨ e = .trailer)) ∧
    (p.length + meas inner < ks.length → ∃ e, EndsWith ps e) := by
  obtain ⟨d1, ps1, h1, ho⟩ := polls_spec ks _ hk (decInv_new inner pool hp)
  have hpre := (C15_nothing_beyond hp hk h hm.malformed).1
  rw [h] at h1
  injection h1 with h1; injection h1 with e1 e2
  subst e1; subst e2
  have hbad : Bad p (abs (ChunkedDecoder.new inner pool)) [] := by
    refine ⟨by simp [abs, conf, ChunkedDecoder.new, Pool.alloc, hp.len, initialCapacity],
      by simp [abs, conf, ChunkedDecoder.new, Pool.alloc, initialCapacity],
      by simp [abs, conf, ChunkedDecoder.new, window], ?_⟩
    show BadSt _ _ _
    simp only [BadSt, abs, conf, ChunkedDecoder.new]
    exact ⟨4096, p, by simpa [window] using hm, rfl, by simp⟩
  cases ho with
  | going g1 g2 g3 g4 g5 g6 =>
    have hs : ¬ SawEof ps := fun hs => (hbad.steps g1).not_done (g5 hs)
    refine ⟨hs, fun e he => absurd he (g3 e), fun hl => ?_⟩
    have := g6 hs
    have := hpre.length_le
    rw [new_meas] at *
    omega
  | failed g1 g2 g3 g4 g5 g6 =>
    rename_i qs e g'
    have hb := hbad.steps g1
    refine ⟨?_, ?_, fun _ => ⟨e, qs, rfl⟩⟩
    · intro hs
      unfold SawEof at hs
      simp only [List.mem_append, List.mem_singleton, reduceCtorEq, or_false] at hs
      exact hb.not_done (g5 hs)
    · intro e' he'
      simp only [List.mem_append, List.mem_singleton, RPoll.err.injEq] at he'
      rcases he' with he' | rfl
      · exact absurd he' (g4 e')
      · have := hb.fails g2
        simpa [received_append, received] using this

/-- **C15 (partial)** for every malformed stream of at most 4096 bytes. -/
theorem C15_small_partial {inner : ρ} {pool : Pool} (hp : pool.Ok) {ks : List Nat} (hk : ∀ k ∈ ks, 0 < k)
    {d' : ChunkedDecoder ρ} {ps : List RPoll} (h : polls (ChunkedDecoder.new inner pool) ks = .ret (d', ps))
    {p : Bytes} (hm : Malformed (rem inner) p) (hlen : (rem inner).length ≤ 4096) :
    ¬ SawEof ps ∧
    (∀ e, .err e ∈ ps → received ps = p ∧ (e = .chunkSize ∨ e = .invalidData ∨ e = .trailer)) ∧
    (p.length + meas inner < ks.length → ∃ e, EndsWith ps e) :=
  C15_error_partial hp hk h (brokenWithin_of_length hm hlen)

/-- A stream that is malformed behind `hello`: the second size line is `xyz`. -/
theorem demo_malformed : Malformed (ascii "5\r\nhello\r\nxyz\r\n") (ascii "hello") := by
  have h1 : SizeLine (ascii "5\r\n") (ascii "hello").length :=
    ⟨ascii "5", [], [], by decide, by decide, by decide, by simp, .inl rfl⟩
  have := Frames.cons h1 (by decide) .nil
  have h2 : NoSizeLine (ascii "xyz\r\n") := by
    intro y l n hl hpre
    obtain ⟨z, hz⟩ := hpre
    have := (Httparse.parseChunkSize_ok _ z n).2 ⟨l, hz.symm, hl⟩
    have e : Httparse.parseChunkSize (ascii "xyz\r\n") = .err .chunkSize := by decide
    rw [Httparse.parseChunkSize_streaming.err e y] at this
    cases this
  have := Malformed.size this h2
  have e : ascii "5\r\n" ++ (ascii "hello" ++ 13 :: 10 :: []) ++ ascii "xyz\r\n" = ascii "5\r\nhello\r\nxyz\r\n" := by decide
  rw [e] at this
  simpa using this

/-- A chunk of 4088 bytes, and behind it something that is no size line, of which the decoder's window takes the first byte. -/
def straddlingBroken : Bytes := ascii "FF8\r\n" ++ (as 4088 ++ (crlf ++ ascii "5xyz\r\n"))

theorem straddlingBroken_malformed : Malformed straddlingBroken (as 4088) := by
  have h1 : SizeLine (ascii "FF8\r\n") (as 4088).length :=
    ⟨ascii "FF8", [], [], by decide, by rw [as_length]; decide, by decide, by simp, .inl rfl⟩
  have hf := Frames.cons h1 (fun h => absurd (congrArg List.length h) (by rw [as_length]; decide)) .nil
  have h2 : NoSizeLine (ascii "5xyz\r\n") := by
    intro y l n hl hpre
    obtain ⟨z, hz⟩ := hpre
    have := (Httparse.parseChunkSize_ok _ z n).2 ⟨l, hz.symm, hl⟩
    have e : Httparse.parseChunkSize (ascii "5xyz\r\n") = .err .chunkSize := by decide
    rw [Httparse.parseChunkSize_streaming.err e y] at this
    cases this
  have := Malformed.size hf h2
  have e : ascii "FF8\r\n" ++ (as 4088 ++ 13 :: 10 :: []) ++ ascii "5xyz\r\n" = straddlingBroken := by
    simp only [straddlingBroken, List.append_assoc, List.cons_append, List.nil_append]; rfl
  rw [e] at this
  simpa using this

/-- **C15 is false of the code**: a stream that is malformed behind a chunk of 4088 bytes, delivered by the transport without any failure;
the application is told that the body has ended, and gets no error. -/
theorem C15_refuted : Malformed straddlingBroken (as 4088) ∧ rem ([.data straddlingBroken] : Script) = straddlingBroken ∧
    ∃ d' ps, polls (ChunkedDecoder.new ([.data straddlingBroken] : Script) zeroPool) [8192, 8192] = .ret (d', ps) ∧ SawEof ps ∧ ∀ e, .err e ∉ ps := by
  refine ⟨straddlingBroken_malformed, by simp only [LawfulRead.rem, Script.bytes, List.append_nil], ?_⟩
  have key : (polls (ChunkedDecoder.new ([.data straddlingBroken] : Script) zeroPool) [8192, 8192] >>= fun x =>
      .ret (x.2.any (fun p => match p with | .data [] => true | _ => false) && x.2.all (fun p => match p with | .err _ => false | _ => true))) = .ret true := by
    decide +kernel
  obtain ⟨⟨d', ps⟩, h1, h2⟩ := Run.bind_eq_ret.1 key
  simp only [Run.ret.injEq, Bool.and_eq_true, List.any_eq_true, List.all_eq_true] at h2
  obtain ⟨⟨p, h3, h4⟩, h5⟩ := h2
  refine ⟨d', ps, h1, ?_, fun e he => ?_⟩
  · split at h4
    · exact h3
    · cases h4
  · exact absurd (h5 _ he) (by simp)

/-- The hypotheses of `C15_error_partial` are met by a chunk of 65536 bytes without its CRLF, in front of anything. -/
example (x : Bytes) : BrokenWithin 4096 (ascii "10000\r\n" ++ (List.replicate 65536 7 ++ (ascii "XX" ++ x))) (List.replicate 65536 7) :=
  .noCrlf ⟨ascii "10000", [], [], by decide, by rw [List.length_replicate]; decide, by decide, by simp, .inl rfl⟩ (fun h => by have := congrArg List.length h; rw [List.length_replicate] at this; cases this) (by decide) (by decide)
    (by unfold chunkCost; rw [List.length_replicate]; decide)

/-- The hypotheses of `C15_small_partial` are met, and the run shows the error. -/
example : ∃ d', polls (ChunkedDecoder.new ([.data (ascii "5\r\nhello\r\nxyz\r\n")] : Script) zeroPool) [9, 9, 9, 9, 9, 9] =
    .ret (d', [.data (ascii "hello"), .err .chunkSize]) := by
  have : seen [.data (ascii "5\r\nhello\r\nxyz\r\n")] [9, 9, 9, 9, 9, 9] =
    .ret ([.data (ascii "hello"), .err .chunkSize], []) := by decide +kernel
  obtain ⟨d', h, _⟩ := seen_ret this
  exact ⟨d', h⟩

/-! ## C17 -/

/-- **C17.** Every sequence of reads with non-empty buffers returns: no panic, no endless loop,
whatever the transport delivers. -/
theorem C17_returns (inner : ρ) {pool : Pool} (hp : pool.Ok) {ks : List Nat} (hk : ∀ k ∈ ks, 0 < k) :
    ∃ d' ps, polls (ChunkedDecoder.new inner pool) ks = .ret (d', ps) := by
  obtain ⟨d1, ps1, h1, _⟩ := polls_spec ks _ hk (decInv_new inner pool hp)
  exact ⟨d1, ps1, h1⟩

/-- A chunk step with an empty caller's buffer changes nothing, so the loop never ends. -/
theorem loop_empty_diverges (fuel : Nat) : ∀ (d : ChunkedDecoder ρ) (buffer : Block) (start stop c l : Nat),
    d.state = .chunk c l → c < l → start < stop → stop ≤ buffer.data.length → stop - start < buffer.cap →
    ChunkedDecoder.loop fuel d buffer start stop false 0 = .diverge := by
  induction fuel with
  | zero => intros; rfl
  | succ n ih =>
    intro d buffer start stop c l hs hc h1 h2 h3
    have e1 : ¬ (stop - start ≥ buffer.cap ∧ ¬ buffer.cap + 1024 ≤ maxCapacity) := by omega
    have e2 : ¬ stop - start ≥ buffer.cap := by omega
    have hsl : slice buffer.data start start = .ret [] := by
      have := slice_ok (s := buffer.data) (lo := start) (hi := start) ⟨Nat.le_refl _, by omega⟩
      rw [this]; simp
    have hin : d.pollReadInner buffer start stop 0 = .ret (d, .res (.some [] (.chunk c l) start stop false)) := by
      unfold ChunkedDecoder.pollReadInner
      rw [hs]
      unfold ChunkedDecoder.pollReadChunk
      have e3 : stop - start > 0 := by omega
      have e4 : ¬ start = stop := by omega
      have e5 : ¬ c = l := by omega
      simp [e3, e4, e5, hsl]
    unfold ChunkedDecoder.loop
    rw [if_neg e1]
    simp only [if_neg e2, ChunkedDecoder.fill, Run.ret_bind, hin, reduceCtorEq, if_false, List.length_nil,
      Nat.lt_irrefl, Bool.false_eq_true, gt_iff_lt]
    exact ih _ buffer start stop c l rfl hc h1 h2 h3

/-- A short chunked body in one fragment. -/
def spinScript : Script := [.data (ascii "5\r\nhello\r\n0\r\n\r\n")]

/-- **C17**, the limit of it: a read with an empty buffer while chunk data is buffered spins forever
(here after one byte of `hello` has been read): however many iterations are allowed, `poll_read` does not
return. -/
theorem C17_empty_buffer_spins : ∃ (d : ChunkedDecoder Script),
    polls (ChunkedDecoder.new spinScript zeroPool) [1] =
      .ret (d, [.data (ascii "h")]) ∧ ∀ fuel, d.pollFuel fuel 0 = .diverge := by
  have key : (do
      let (d, ps) ← polls (ChunkedDecoder.new spinScript zeroPool) [1]
      .ret (ps, d.state, d.start, d.stop, d.buffer.data.length, d.buffer.cap, d.initialDecode) : Run _) =
      .ret ([.data (ascii "h")], .chunk 1 5, 4, 15, 4096, 4096, true) := by decide +kernel
  cases hp : polls (ChunkedDecoder.new spinScript zeroPool) [1] with
  | panic => rw [hp] at key; simp at key
  | diverge => rw [hp] at key; simp at key
  | ret x =>
    obtain ⟨d, ps⟩ := x
    rw [hp] at key
    simp only [Run.ret_bind, Run.ret.injEq, Prod.mk.injEq] at key
    obtain ⟨rfl, h1, h2, h3, h4, h5, h6⟩ := key
    refine ⟨d, rfl, fun fuel => ?_⟩
    have hsl : slice d.buffer.data 4 4 = .ret [] := by
      have := slice_ok (s := d.buffer.data) (lo := 4) (hi := 4) ⟨Nat.le_refl _, by omega⟩
      rw [this]; simp
    unfold ChunkedDecoder.pollFuel
    simp only [h2, h3, h6]
    rw [if_pos (by decide)]
    simp only [ChunkedDecoder.pollReadInner, h1, ChunkedDecoder.pollReadChunk]
    simp only [Nat.min_zero, Nat.zero_min, Nat.add_zero, hsl, Run.ret_bind]
    exact loop_empty_diverges fuel _ d.buffer 4 15 1 5 rfl (by omega) (by omega) (by omega) (by omega)

/-! ## C18 -/

/-- **C18.** After the end of the body has been reported, no further data is ever read. -/
theorem C18_eof_final {inner : ρ} {pool : Pool} (hp : pool.Ok) {ks : List Nat} (hk : ∀ k ∈ ks, 0 < k)
    {d' : ChunkedDecoder ρ} {ps qs : List RPoll}
    (h : polls (ChunkedDecoder.new inner pool) ks = .ret (d', ps ++ .data [] :: qs)) : received qs = [] := by
  have gen : ∀ (ks : List Nat) (d : ChunkedDecoder ρ) (ps : List RPoll), (∀ k ∈ ks, 0 < k) → DecInv d →
      polls d ks = .ret (d', ps ++ .data [] :: qs) → received qs = [] := by
    intro ks
    induction ks with
    | nil => intro d ps _ _ h; simp [polls] at h
    | cons k ks ih =>
      intro d ps hk hd
      have hk' : ∀ k ∈ ks, 0 < k := fun k h => hk k (by simp [h])
      have tail : ∀ {d1 : ChunkedDecoder ρ} {p : RPoll}, DecInv d1 → (p = .data [] → d1.state = .done) →
          ((polls d1 ks).bind fun (r, ps) => .ret (r, p :: ps)) = .ret (d', ps ++ .data [] :: qs) → received qs = [] := by
        intro d1 p hd1 hpd h
        obtain ⟨d2, ps2, hp2, ho2⟩ := polls_spec ks d1 hk' hd1
        have hp2' := hp2
        rw [hp2] at h
        simp only [Run.bind, Run.ret.injEq, Prod.mk.injEq] at h
        obtain ⟨rfl, h⟩ := h
        cases ps with
        | nil =>
          simp only [List.nil_append, List.cons.injEq] at h
          obtain ⟨hpe, rfl⟩ := h
          have hdn : (abs d1).st = .done := hpd hpe
          cases ho2 with
          | going g1 => exact (done_steps g1 hdn).1
          | failed g1 => simp [received_append, received, (done_steps g1 hdn).1]
        | cons q ps =>
          simp only [List.cons_append, List.cons.injEq] at h
          obtain ⟨_, rfl⟩ := h
          exact ih d1 ps hk' hd1 hp2'
      intro h
      obtain ⟨d1, p, hp1, ho⟩ := poll_spec d k (hk k (by simp)) hd
      simp only [polls, hp1, Run.ret_bind] at h
      cases ho with
      | err h1 h2 h3 h4 =>
        simp only [Run.ret.injEq, Prod.mk.injEq] at h
        have := h.2
        cases ps <;> simp at this
      | pending h1 h2 h3 h4 => exact tail h2 (by simp) h
      | data h1 h2 h3 h4 h5 => exact tail h2 (by intro he; exact h5.1 (by simpa using he)) h
  exact gen ks _ ps hk (decInv_new inner pool hp) h

/-- The end is reported, reads go on, and the bytes of a next message are not handed out. -/
example : ∃ d', polls (ChunkedDecoder.new ([.data (ascii "1\r\na\r\n0\r\n\r\nGET / HTTP/1.1"), .data (ascii "3\r\nxyz\r\n")] : Script) zeroPool)
    [9, 9, 9, 9] = .ret (d', [.data (ascii "a")] ++ .data [] :: [.data [], .data []]) := by
  have : seen [.data (ascii "1\r\na\r\n0\r\n\r\nGET / HTTP/1.1"), .data (ascii "3\r\nxyz\r\n")] [9, 9, 9, 9] =
    .ret ([.data (ascii "a"), .data [], .data [], .data []], [[]]) := by decide +kernel
  obtain ⟨d', h, _⟩ := seen_ret this
  exact ⟨d', h⟩

/-! ## C19 -/

/-- **C19 (partial).** What tophat sends for a response without declared length, tophat's decoder reads
back, for every schedule of sender and receiver: always a prefix of the body; and if the framing of the chunked
message takes at most 4096 bytes, the whole body, a clean end and empty trailers.  Missing: more framing
(`C19_lossy`). -/
theorem C19_roomy_partial {σ : Type} [AsyncBufRead σ] [LawfulBufRead σ] {hexLen : Nat → Nat} (hx : HexLenOk hexLen)
    {resp : InnerResponse σ} {now : Bytes} (hl : resp.length = none) (hw : resp.headers.WF) {bufs : List Bytes} {out : Bytes}
    (hsend : observe hexLen now resp bufs = .ret (out, .eof)) (h7 : ∀ b ∈ bufs, 7 ≤ b.length)
    (hbody : (rem resp.body).length < 2 ^ 64) {inner : ρ} {x : Bytes} (hrecv : headOf resp now ++ rem inner = out ++ x)
    {pool : Pool} (hp : pool.Ok) {ks : List Nat} (hk : ∀ k ∈ ks, 0 < k)
    {d' : ChunkedDecoder ρ} {ps : List RPoll} (h : polls (ChunkedDecoder.new inner pool) ks = .ret (d', ps)) :
    received ps <+: rem resp.body ∧
    (∀ wire, out = headOf resp now ++ wire → Roomy wire (rem resp.body) [] →
      ((∃ e, .err e ∈ ps) → SawEof ps) ∧
      (SawEof ps → received ps = rem resp.body ∧ d'.sent = [[]]) ∧
      ((rem resp.body).length + meas inner < ks.length → SawEof ps)) := by
  obtain ⟨wire, rfl, hm, _⟩ := (C01_chunked_framing hx hl hw hsend).2.2 h7 rfl
  have hb := hm.body hbody
  have hr : rem inner = wire ++ x := by simpa using hrecv
  refine ⟨C12_of_message hp hk h hb hr, fun wire' he hw' => ?_⟩
  have := List.append_cancel_left he
  subst this
  obtain ⟨c1, c2, c3⟩ := C13_roomy_partial hp hk h hw' (by simp) hr
  refine ⟨c1, fun hs => ?_, c3⟩
  obtain ⟨e1, m, e2, e3⟩ := c2 hs
  refine ⟨e1, ?_⟩
  have : m = [] := by
    cases m with
    | nil => rfl
    | cons e m =>
      have h1 := e3.2 e.1
      have h2 := e3.1.vals e (by simp)
      obtain ⟨k, vs⟩ := e
      rw [HeaderMap.getAll_cons] at h1
      simp at h1 h2
      exact absurd h1.1 h2
  rw [e2, this]

/-- **C19 (partial)** for chunked messages of at most 4096 bytes. -/
theorem C19_roundtrip_partial {σ : Type} [AsyncBufRead σ] [LawfulBufRead σ] {hexLen : Nat → Nat} (hx : HexLenOk hexLen)
    {resp : InnerResponse σ} {now : Bytes} (hl : resp.length = none) (hw : resp.headers.WF) {bufs : List Bytes} {out : Bytes}
    (hsend : observe hexLen now resp bufs = .ret (out, .eof)) (h7 : ∀ b ∈ bufs, 7 ≤ b.length)
    (hbody : (rem resp.body).length < 2 ^ 64) {inner : ρ} {x : Bytes} (hrecv : headOf resp now ++ rem inner = out ++ x)
    {pool : Pool} (hp : pool.Ok) {ks : List Nat} (hk : ∀ k ∈ ks, 0 < k)
    {d' : ChunkedDecoder ρ} {ps : List RPoll} (h : polls (ChunkedDecoder.new inner pool) ks = .ret (d', ps)) :
    received ps <+: rem resp.body ∧
    (out.length ≤ (headOf resp now).length + 4096 →
      ((∃ e, .err e ∈ ps) → SawEof ps) ∧
      (SawEof ps → received ps = rem resp.body ∧ d'.sent = [[]]) ∧
      ((rem resp.body).length + meas inner < ks.length → SawEof ps)) := by
  obtain ⟨h1, h2⟩ := C19_roomy_partial hx hl hw hsend h7 hbody hrecv hp hk h
  refine ⟨h1, fun hlen => ?_⟩
  obtain ⟨wire, rfl, hm, _⟩ := (C01_chunked_framing hx hl hw hsend).2.2 h7 rfl
  exact h2 wire rfl (roomy_of_length (hm.body hbody) (by simp only [List.length_append] at hlen; omega))

/-- A body of 4093 bytes that comes in two pieces. -/
def lossyBody : InnerResponse Script :=
  { status := 200, headers := [], version := .http11, length := none,
    body := [.data (as 4088), .data (ascii "hello")] }

/-- A test that `straddling` follows the head in `out`, cheap enough for the kernel. -/
def isStraddling (out : Bytes) : Bool :=
  out.take 5 == ascii "FF8\r\n" && (((out.drop 5).take 4088).all (· == 97) && ((out.drop 5).take 4088).length == 4088) &&
  out.drop 4093 == crlf ++ ascii "5\r\nhello\r\n0\r\n\r\n"

theorem isStraddling_eq {out : Bytes} (h : isStraddling out = true) : out = straddling := by
  simp only [isStraddling, Bool.and_eq_true, beq_iff_eq, List.all_eq_true] at h
  obtain ⟨⟨h1, h2, h3⟩, h4⟩ := h
  have h5 : (out.drop 5).take 4088 = as 4088 := List.eq_replicate_iff.2 ⟨h3, h2⟩
  have h6 : out.drop 4093 = (out.drop 5).drop 4088 := by rw [List.drop_drop]
  rw [straddling, ← h1, ← h5, ← h4, h6, List.take_append_drop, List.take_append_drop]

theorem lossy_sent : ∃ out, observe exactHexLen (ascii "NOW") lossyBody (List.replicate 4 (List.replicate 8192 0)) = .ret (out, .eof) ∧
    out.take (headOf lossyBody (ascii "NOW")).length = headOf lossyBody (ascii "NOW") ∧
    isStraddling (out.drop (headOf lossyBody (ascii "NOW")).length) = true := by
  have key : (do
      let (out, st) ← observe exactHexLen (ascii "NOW") lossyBody (List.replicate 4 (List.replicate 8192 0))
      .ret (st, out.take (headOf lossyBody (ascii "NOW")).length, isStraddling (out.drop (headOf lossyBody (ascii "NOW")).length)) : Run _) =
      .ret (.eof, headOf lossyBody (ascii "NOW"), true) := by decide +kernel
  cases hp : observe exactHexLen (ascii "NOW") lossyBody (List.replicate 4 (List.replicate 8192 0)) with
  | panic => rw [hp] at key; simp at key
  | diverge => rw [hp] at key; simp at key
  | ret x =>
    obtain ⟨out, st⟩ := x
    rw [hp] at key
    simp only [Run.ret_bind, Run.ret.injEq, Prod.mk.injEq] at key
    exact ⟨out, by rw [key.1], key.2.1, key.2.2⟩

/-- **C19 is false of the code beyond 4096 bytes**: tophat's own encoding of this body, polled with the 8192
byte buffers of `io::copy`, loses its last five bytes in tophat's decoder, which reports a normal end. -/
theorem C19_lossy : ∃ (wire : Bytes) (d' : ChunkedDecoder Script) (ps : List RPoll),
    observe exactHexLen (ascii "NOW") lossyBody (List.replicate 4 (List.replicate 8192 0)) =
      .ret (headOf lossyBody (ascii "NOW") ++ wire, .eof) ∧
    polls (ChunkedDecoder.new ([.data wire] : Script) zeroPool) [8192, 8192] = .ret (d', ps) ∧
    SawEof ps ∧ received ps ≠ rem lossyBody.body := by
  obtain ⟨d', ps, h, hlen, heof⟩ := straddling_seen
  obtain ⟨out, ho, h1, h2⟩ := lossy_sent
  refine ⟨straddling, d', ps, ?_, h, heof, ?_⟩
  · rw [ho, ← isStraddling_eq h2]
    conv => lhs; rw [← List.take_append_drop (headOf lossyBody (ascii "NOW")).length out, h1]
  intro h
  have := congrArg List.length h
  simp only [hlen, LawfulRead.rem, lossyBody, Script.bytes, List.length_append, as_length] at this
  exact absurd this (by decide)

/-- The hypotheses of `C19_roundtrip_partial` are met: `demoStream`, sent through `demoBufs`, received in fragments. -/
example : ∃ wire, observe exactHexLen (ascii "NOW") demoStream demoBufs = .ret (headOf demoStream (ascii "NOW") ++ wire, .eof) ∧
    seen [.data (wire.take 10), .pending, .data (wire.drop 10)] [3, 9, 9, 9, 9, 9, 9] =
      .ret ([.data (ascii "hel"), .data (ascii "lo"), .pending, .data (ascii " w"), .data (ascii "orld"), .data [], .data []], [[]]) :=
  ⟨ascii "5\r\nhello\r\n2\r\n w\r\n4\r\norld\r\n0\r\n\r\n", by decide +kernel, by decide +kernel⟩

/-- A body of 5000 bytes in one piece. -/
def longBody : InnerResponse Script := { lossyBody with body := [.data (as 5000)] }

/-- The chunked message for it. -/
def longWire : Bytes := ascii "1388\r\n" ++ (as 5000 ++ (crlf ++ (ascii "0\r\n" ++ ascii "\r\n")))

def isLongWire (out : Bytes) : Bool :=
  out.take 6 == ascii "1388\r\n" && (((out.drop 6).take 5000).all (· == 97) && ((out.drop 6).take 5000).length == 5000) &&
  out.drop 5006 == crlf ++ (ascii "0\r\n" ++ ascii "\r\n")

theorem isLongWire_eq {out : Bytes} (h : isLongWire out = true) : out = longWire := by
  simp only [isLongWire, Bool.and_eq_true, beq_iff_eq, List.all_eq_true] at h
  obtain ⟨⟨h1, h2, h3⟩, h4⟩ := h
  have h5 : (out.drop 6).take 5000 = as 5000 := List.eq_replicate_iff.2 ⟨h3, h2⟩
  have h6 : out.drop 5006 = (out.drop 6).drop 5000 := by rw [List.drop_drop]
  rw [longWire, ← h1, ← h5, ← h4, h6, List.take_append_drop, List.take_append_drop]

/-- The hypotheses of `C19_roomy_partial` are met by a response of more than 4096 bytes. -/
example : observe exactHexLen (ascii "NOW") longBody (List.replicate 3 (List.replicate 8192 0)) = .ret (headOf longBody (ascii "NOW") ++ longWire, .eof) ∧
    Roomy longWire (rem longBody.body) [] := by
  constructor
  · have key : (do
        let (out, st) ← observe exactHexLen (ascii "NOW") longBody (List.replicate 3 (List.replicate 8192 0))
        .ret (st, out.take (headOf longBody (ascii "NOW")).length, isLongWire (out.drop (headOf longBody (ascii "NOW")).length)) : Run _) =
        .ret (.eof, headOf longBody (ascii "NOW"), true) := by decide +kernel
    obtain ⟨⟨out, st⟩, h1, h2⟩ := Run.bind_eq_ret.1 key
    simp only [Run.ret.injEq, Prod.mk.injEq] at h2
    rw [h1, h2.1]
    conv => lhs; rw [← List.take_append_drop (headOf longBody (ascii "NOW")).length out, h2.2.1, isLongWire_eq h2.2.2]
  · have : rem longBody.body = as 5000 := by show as 5000 ++ [] = _; exact List.append_nil _
    rw [this]
    exact roomy_one_chunk ⟨ascii "1388", [], [], by decide, by rw [as_length]; decide, by decide, by simp, .inl rfl⟩ (by rw [as_length]; decide)
      ⟨ascii "0", [], [], by decide, by decide, by decide, by simp, .inl rfl⟩ (.blank (.inl rfl)) (by decide)

end Tophat
