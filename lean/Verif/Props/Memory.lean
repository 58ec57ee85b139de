import Verif.Proofs.Memory
import Verif.Props.ChunkedRequest
/-!
# Property C74: memory for chunked bodies
-/

set_option linter.unusedSectionVars false

namespace Tophat
open Spec Dec

section
variable {ρ : Type} [AsyncRead ρ]

theorem readsOn_keeps {p : Pool} {M : Nat} {B : Block → Prop} (hB : Mem.Closed p M B) : ∀ (ks : List Nat) {d d' : ChunkedDecoder ρ} {ps : List RPoll},
    Mem.Inv p M B d → readsOn d ks = .ret (d', ps) → Mem.Inv p M B d' := by
  intro ks
  induction ks with
  | nil => intro d d' ps hd h; cases h; exact hd
  | cons k ks ih =>
    intro d d' ps hd h
    simp only [readsOn] at h
    obtain ⟨⟨d1, q⟩, h1, h2⟩ := Run.bind_eq_ret.1 h
    obtain ⟨⟨d2, qs⟩, h3, h4⟩ := Run.bind_eq_ret.1 h2
    cases h4
    exact ih (Mem.poll_keeps hB hd h1) h3

theorem new_keeps {p : Pool} {M : Nat} {B : Block → Prop} (hB : Mem.Closed p M B) (inner : ρ) : Mem.Inv p M B (ChunkedDecoder.new inner p) :=
  ⟨hB.alloc _, Nat.zero_le _, rfl, rfl⟩

/-- **C74.** Whatever the transport delivers and however the application reads, also after errors and after the end, a chunked body never holds more than 512 MiB. -/
theorem C74_bound (inner : ρ) {pool : Pool} (hp : pool.Ok) {ks : List Nat} {d' : ChunkedDecoder ρ} {ps : List RPoll}
    (h : readsOn (ChunkedDecoder.new inner pool) ks = .ret (d', ps)) : held d' ≤ 512 * 1024 * 1024 := by
  have hB : Mem.Closed pool (512 * 1024 * 1024) (fun b => b.data.length ≤ 512 * 1024 * 1024) := by
    refine ⟨fun n => ?_, fun h => h, fun h e => by dsimp only; omega, fun {b} h1 h2 h3 => ?_⟩
    · have := hp.len n
      have e : initialCapacity = 4096 := rfl
      dsimp only; omega
    · have e : maxCapacity = 512 * 1024 * 1024 := rfl
      rw [e] at h3
      simp only [List.length_append, List.length_replicate]
      omega
  exact (readsOn_keeps hB ks (new_keeps hB inner) h).block

/-- **C74**, for an allocator that reserves more than is asked for when it has to enlarge a block (as `Vec` does, which at least doubles its capacity): never more than 5120 bytes. -/
theorem C74_amortised (inner : ρ) {pool : Pool} (hp : pool.Ok) (hg : ∀ c, 4096 ≤ c → c + 1024 < pool.grow c) {ks : List Nat} {d' : ChunkedDecoder ρ} {ps : List RPoll}
    (h : readsOn (ChunkedDecoder.new inner pool) ks = .ret (d', ps)) : held d' ≤ 5120 := by
  have e : initialCapacity = 4096 := rfl
  have hB : Mem.Closed pool 5120 (fun b => b.data.length = 4096 ∧ b.cap = 4096 ∨ b.data.length = 5120 ∧ 5120 < b.cap) := by
    refine ⟨fun n => .inl ⟨hp.len n, rfl⟩, fun h => by omega, fun h e => by dsimp only; omega, fun {b} h1 h2 h3 => .inr ?_⟩
    simp only [List.length_append, List.length_replicate]
    have := hg b.cap (by omega)
    omega
  have := (readsOn_keeps hB ks (new_keeps hB inner) h).block
  unfold held
  omega

end

section
variable {ρ : Type} [AsyncRead ρ] [LawfulRead ρ]

theorem run_mem {inner : ρ} {pool : Pool} (hp : pool.Ok) {ks : List Nat} (hk : ∀ k ∈ ks, 0 < k) {d' : ChunkedDecoder ρ} {ps : List RPoll}
    (h : polls (ChunkedDecoder.new inner pool) ks = .ret (d', ps)) (he : ∀ e, .err e ∉ ps) : MemInv (rem inner) (abs d') := by
  obtain ⟨d1, ps1, h1, ho⟩ := polls_spec ks _ hk (decInv_new inner pool hp)
  rw [h] at h1
  injection h1 with h1; injection h1 with e1 e2
  subst e1; subst e2
  cases ho with
  | going g1 _ _ _ _ _ => exact (memInv_new inner hp _).steps (inv_new inner pool) g1
  | failed _ _ _ _ _ _ => exact absurd (List.mem_append_right _ (List.mem_singleton_self _)) (he _)

/-- **C74.** It holds 4096 bytes, unless the stream has a size line or a trailer section that is longer than this; and then at most 1024 bytes more than it has received of such a line. -/
theorem C74_framing {inner : ρ} {pool : Pool} (hp : pool.Ok) {ks : List Nat} (hk : ∀ k ∈ ks, 0 < k) {d' : ChunkedDecoder ρ} {ps : List RPoll}
    (h : polls (ChunkedDecoder.new inner pool) ks = .ret (d', ps)) (he : ∀ e, .err e ∉ ps) :
    held d' = 4096 ∨ ∃ w, Unfinished (rem inner) w ∧ 4096 ≤ w.length ∧ held d' ≤ w.length + 1024 := by
  have hm := run_mem hp hk h he
  rcases hm.bound with h1 | h1
  · exact .inl (Nat.le_antisymm h1 hm.pos)
  · exact .inr h1

/-- **C74.** So for a body without such lines it is 4096 bytes, however long the body is, and whatever comes behind it. -/
theorem C74_constant {inner : ρ} {pool : Pool} (hp : pool.Ok) {ks : List Nat} (hk : ∀ k ∈ ks, 0 < k) {d' : ChunkedDecoder ρ} {ps : List RPoll}
    (h : polls (ChunkedDecoder.new inner pool) ks = .ret (d', ps)) (he : ∀ e, .err e ∉ ps) {s r : Bytes} (hs : ShortLines 4096 s) (hr : rem inner = s ++ r) :
    held d' = 4096 := by
  rcases C74_framing hp hk h he with h1 | ⟨w, h1, h2, -⟩
  · exact h1
  · rw [hr] at h1
    exact absurd (shortLines_finished hs h1) (by omega)

end

/-! ## Concrete cases -/

/-- A body of two chunks. -/
theorem demo_short : ShortLines 4096 (ascii "5;ext\r\nhello\r\n6 \r\n world\r\n0\r\nX-T: 1\r\nx-t: 2\r\n\r\n") := by
  obtain ⟨w, l, t, e, hf, hl, ht⟩ := demo_body
  have h1 : SizeLine (ascii "5;ext\r\n") (ascii "hello").length :=
    ⟨ascii "5", [], ascii ";ext", by decide, by decide, by decide, by simp, .inr ⟨ascii "ext", by decide, by decide⟩⟩
  have h2 : SizeLine (ascii "6 \r\n") (ascii " world").length :=
    ⟨ascii "6", [32], [], by decide, by decide, by decide, by simp, .inl rfl⟩
  have f1 : FieldLine (ascii "X-T: 1\r\n") (ascii "X-T") (ascii "1") :=
    ⟨[32], [13, 10], by decide, by decide, by unfold tokenByte; decide, by simp, by unfold valueByte; decide, by decide, .inl rfl⟩
  have f2 : FieldLine (ascii "x-t: 2\r\n") (ascii "x-t") (ascii "2") :=
    ⟨[32], [13, 10], by decide, by decide, by unfold tokenByte; decide, by simp, by unfold valueByte; decide, by decide, .inl rfl⟩
  have hs := FieldSection.field f1 (.field f2 (.blank (e := [13, 10]) (.inl rfl)))
  have := ShortLines.chunk h1 (by decide) (by decide) (.chunk (f := 4096) h2 (by decide) (by decide) (.last lastLine (by decide) hs (by decide) (by decide)))
  exact this

/-- The hypotheses of the theorems are met. -/
example : ∃ d' ps, polls (ChunkedDecoder.new demoFrags zeroPool) [3, 3, 8] = .ret (d', ps) ∧ (∀ e, .err e ∉ ps) ∧
    rem demoFrags = ascii "5;ext\r\nhello\r\n6 \r\n world\r\n0\r\nX-T: 1\r\nx-t: 2\r\n\r\n" ++ ascii "GET" ∧ held d' = 4096 := by
  have key : (polls (ChunkedDecoder.new demoFrags zeroPool) [3, 3, 8] >>= fun x => .ret (x.2.all (fun p => match p with | .err _ => false | _ => true))) = .ret true := by decide +kernel
  obtain ⟨⟨d', ps⟩, h1, h2⟩ := Run.bind_eq_ret.1 key
  simp only [Run.ret.injEq, List.all_eq_true] at h2
  have he : ∀ e, .err e ∉ ps := fun e h => absurd (h2 _ h) (by simp)
  have hr : rem demoFrags = ascii "5;ext\r\nhello\r\n6 \r\n world\r\n0\r\nX-T: 1\r\nx-t: 2\r\n\r\n" ++ ascii "GET" := by decide
  exact ⟨d', ps, h1, he, hr, C74_constant zeroPool_ok (by decide) h1 he demo_short hr⟩

/-- A size line with a long extension. -/
def longLine (n : Nat) : Bytes := ascii "5;" ++ as n ++ ascii "\r\nhello\r\n0\r\n\r\n"

/-- The bound of `C74_framing` is reached: a size line of 4104 bytes makes it 5120. -/
example : (polls (ChunkedDecoder.new ([.data (longLine 4100)] : Script) zeroPool) [8, 8] >>= fun x => .ret (held x.1, x.2)) =
    .ret (5120, [.data (ascii "hello"), .data []]) := by decide +kernel

/-- A pool whose blocks double their capacity when they are enlarged, as `Vec` does. -/
def doublingPool : Pool := ⟨fun _ => List.replicate initialCapacity 0, fun c => max (2 * c) (c + 1024), 0⟩

theorem doublingPool_ok : doublingPool.Ok := ⟨fun _ => List.length_replicate, fun c => Nat.le_max_right _ _⟩

theorem doublingPool_grows (c : Nat) (h : 4096 ≤ c) : c + 1024 < doublingPool.grow c := by
  show c + 1024 < max (2 * c) (c + 1024)
  omega

theorem longLine_body (n : Nat) : Body (longLine n) (ascii "hello") [] := by
  have h1 : SizeLine (ascii "5;" ++ as n ++ ascii "\r\n") (ascii "hello").length :=
    ⟨ascii "5", [], 59 :: as n, by simp [ascii], by decide, by decide, by simp, .inr ⟨as n, rfl, fun h => absurd (List.eq_of_mem_replicate h) (by decide)⟩⟩
  refine ⟨_, ascii "0\r\n", ascii "\r\n", ?_, .cons h1 (by decide) .nil, lastLine, emptySection⟩
  simp [longLine, ascii]

/-- **C13 is false of the code**, also for a size line alone: with an allocator that doubles, a valid body whose first size line has 6004 bytes is reported as an empty body, without an error. -/
theorem C13_long_line : Body (longLine 6000) (ascii "hello") [] ∧ doublingPool.Ok ∧
    ∃ d', polls (ChunkedDecoder.new ([.data (longLine 6000)] : Script) doublingPool) [8] = .ret (d', [.data []]) := by
  refine ⟨longLine_body _, doublingPool_ok, ?_⟩
  have key : (polls (ChunkedDecoder.new ([.data (longLine 6000)] : Script) doublingPool) [8] >>= fun x => .ret x.2) = .ret [.data []] := by decide +kernel
  obtain ⟨⟨d', ps⟩, h1, h2⟩ := Run.bind_eq_ret.1 key
  simp only [Run.ret.injEq] at h2
  subst h2
  exact ⟨d', h1⟩

/-- The hypotheses of `C74_bound` and `C74_amortised` are met, and the bound is reached, by a stream with a size line of 6004 bytes that is read on after its end. -/
example : ∃ d' ps, readsOn (ChunkedDecoder.new ([.data (longLine 6000)] : Script) doublingPool) [8, 0, 8] = .ret (d', ps) ∧ held d' = 5120 := by
  have key : (readsOn (ChunkedDecoder.new ([.data (longLine 6000)] : Script) doublingPool) [8, 0, 8] >>= fun x => .ret (held x.1)) = .ret 5120 := by decide +kernel
  obtain ⟨⟨d', ps⟩, h1, h2⟩ := Run.bind_eq_ret.1 key
  exact ⟨d', ps, h1, by simpa using h2⟩

end Tophat
