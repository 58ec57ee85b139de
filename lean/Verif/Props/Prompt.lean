import Verif.Proofs.Prompt
import Verif.Props.Copy
/-!
# Property C68: what the body has yielded is sent without waiting for more

The body of the response is `Stall.talk r N` (`Spec/Stall.lean`): an arbitrary reader `r`, and when it has nothing more to give, the body does not end but is `Pending` for
`N` polls.  `send` is stopped after `fuel ≤ N` steps, so during the whole run the end of the body has not been seen.
-/

set_option linter.unusedSectionVars false

namespace Tophat
open Spec

variable {ρ : Type} [AsyncBufRead ρ] [LawfulBufRead ρ]

/-- The proof for bodies of unknown length, for any reader that falls silent. -/
theorem streamed_naps {hexLen : Nat → Nat} (hx : HexLenOk hexLen) {resp : InnerResponse ρ} {now : Bytes} (hw : resp.headers.WF) (hl : resp.length = none) {N : Nat} {D : Nat → ρ → Prop} {Q : ρ → Prop} (hN : Naps N D Q)
    (hq : ¬ Q resp.body) (hf : fin resp.body = none) {w : Writer} (hrel : w.Reliable) {fuel : Nat} (hD : D (N - fuel + fuel) resp.body)
    (h1 : 2 * ((headOf resp now).length + (rem resp.body).length + 1 + meas resp.body - N) + w.script.length < fuel) :
    ∃ w' wire, sendResponse hexLen now fuel resp w = .ret (w', .running) ∧ w'.got = w.got ++ headOf resp now ++ wire ∧ Chunks wire (rem resp.body) := by
  have hd := Encoder.sleepy_dozes hN (now := now) hx hl hw hq
  have hm : ∀ k e out, Encoder.Sleepy D resp now (k + 1) e out → Encoder.Sleepy D resp now k e out := fun k e out h => ⟨h.1, h.2.1, h.2.2.1, hN.mono h.2.2.2.1, h.2.2.2.2⟩
  have h0 : Encoder.Sleepy D resp now (N - fuel + fuel) (Encoder.encode resp) [] := ⟨Encoder.chInv_start resp now, by simp [Encoder.encode], .inl rfl, hD, hf⟩
  have hH : headOf resp now = Encoder.specHead resp now := rfl
  obtain ⟨⟨s', res⟩, hs⟩ := copyGo_total hd hm fuel (N - fuel) (CopyState.init (Encoder.encode resp) w) [] h0 (by simp [CopyState.init]) (by simp [CopyState.init])
  obtain ⟨rfl, out', sent', g1, g2, g3, g4⟩ := copyGo_dozes hd hm fuel (N - fuel) (CopyState.init (Encoder.encode resp) w) [] [] w.got h0 (by simp [CopyState.init]) (by simp [CopyState.init]) (by simp [CopyState.init])
    hrel (by simp [CopyState.init]) (by simp [CopyState.init]) s' res hs
  obtain ⟨g5, rfl⟩ := g4 (.inl (by
    simp [CopyState.init, Encoder.chWork, Encoder.encode, ChunkedEncoder.new]
    rw [hH] at h1
    omega))
  obtain ⟨q1, q2⟩ := Encoder.sleepy_quiet hN hq g1 (by omega)
  obtain ⟨i1, i2, i3, i4, i5⟩ := g1
  simp only [Encoder.ChInv, q2] at i1
  obtain ⟨wire, o1, -, o2⟩ := i1
  rcases o2 with ⟨-, p, o3, o4, -⟩ | ⟨o3, -⟩
  · refine ⟨s'.writer, wire, sendResponse_ret.2 ⟨s', hs, rfl⟩, by rw [g2, o1, hH, List.append_assoc], ?_⟩
    rw [hN.silent i4 q1, List.append_nil] at o4
    rwa [o4]
  · rcases i3 with h | h <;> rw [h] at o3 <;> cases o3

/-- The proof for declared lengths, for any reader that falls silent. -/
theorem fixed_naps {hexLen : Nat → Nat} {resp : InnerResponse ρ} {now : Bytes} (hw : resp.headers.WF) {n : Nat} (hl : resp.length = some n) (hlim : 8192 + n < usizeLimit) {N : Nat} {D : Nat → ρ → Prop} {Q : ρ → Prop} (hN : Naps N D Q)
    (hq : ¬ Q resp.body) (hf : fin resp.body = none) (hn : (rem resp.body).length < n) {w : Writer} (hrel : w.Reliable) {fuel : Nat} (hD : D (N - fuel + fuel) resp.body)
    (h1 : 2 * ((headOf resp now).length + (rem resp.body).length + meas resp.body - N) + w.script.length < fuel) :
    ∃ w', sendResponse hexLen now fuel resp w = .ret (w', .running) ∧ w'.got = w.got ++ headOf resp now ++ rem resp.body := by
  have hd := Encoder.sleepyFx_dozes hN (hexLen := hexLen) (now := now) hl hw hlim hn hq
  have hm : ∀ k e out, Encoder.SleepyFx D resp now n (k + 1) e out → Encoder.SleepyFx D resp now n k e out := fun k e out h => ⟨h.1, hN.mono h.2.1, h.2.2⟩
  have h0 : Encoder.SleepyFx D resp now n (N - fuel + fuel) (Encoder.encode resp) [] := ⟨Encoder.fxInv_start resp now n, hD, hf⟩
  have hH : headOf resp now = Encoder.specHead resp now := rfl
  obtain ⟨⟨s', res⟩, hs⟩ := copyGo_total hd hm fuel (N - fuel) (CopyState.init (Encoder.encode resp) w) [] h0 (by simp [CopyState.init]) (by simp [CopyState.init])
  obtain ⟨rfl, out', sent', g1, g2, g3, g4⟩ := copyGo_dozes hd hm fuel (N - fuel) (CopyState.init (Encoder.encode resp) w) [] [] w.got h0 (by simp [CopyState.init]) (by simp [CopyState.init]) (by simp [CopyState.init])
    hrel (by simp [CopyState.init]) (by simp [CopyState.init]) s' res hs
  obtain ⟨g5, rfl⟩ := g4 (.inl (by
    simp [CopyState.init, Encoder.encode]
    rw [hH] at h1
    omega))
  refine ⟨s'.writer, sendResponse_ret.2 ⟨s', hs, rfl⟩, ?_⟩
  obtain ⟨i1, i2, i3⟩ := g1
  rw [g2, hH, List.append_assoc]
  congr 1
  have hlen : (Encoder.specHead resp now).length + (rem resp.body).length ≤ sent'.length := by
    by_cases hqq : Q s'.enc.resp.body
    · have hst := Encoder.fxQuiet hq i1 hn hqq
      simp only [Encoder.FxInv, hst] at i1
      obtain ⟨b, q1, -, -, -, q2, -⟩ := i1
      rw [hN.silent i2 hqq, List.append_nil] at q2
      rw [q1, ← q2]
      simp
    · have := hN.loud i2 hqq
      omega
  have hpre := i1.out
  rw [Encoder.FxOut, List.take_of_length_le (by omega)] at hpre
  exact hpre.eq_of_length (Nat.le_antisymm hpre.length_le (by simpa using hlen))

/-- **C68**, body of unknown length.  While the body is silent, `send` goes on waiting, and the transport has got the head and, in whole chunks, every byte that the body
has yielded.  The number of steps it takes is bounded in advance. -/
theorem C68_streamed {hexLen : Nat → Nat} (hx : HexLenOk hexLen) {resp : InnerResponse (Stall ρ)} {now : Bytes} (hw : resp.headers.WF) (hl : resp.length = none) {r : ρ} {N : Nat}
    (hb : resp.body = .talk r N) (hf : fin r = none) {w : Writer} (hrel : w.Reliable) {fuel : Nat} (h1 : 2 * ((headOf resp now).length + (rem r).length + 1 + meas r) + w.script.length < fuel) (h2 : fuel ≤ N) :
    ∃ w' wire, sendResponse hexLen now fuel resp w = .ret (w', .running) ∧ w'.got = w.got ++ headOf resp now ++ wire ∧ Chunks wire (rem r) := by
  have hrem : rem resp.body = rem r := by rw [hb]; rfl
  have hmeas : meas resp.body = meas r + N := by rw [hb]; rfl
  rw [← hrem]
  exact streamed_naps hx hw hl (Stall.naps N) (fun ⟨j, h⟩ => by rw [hb] at h; cases h) (by rw [hb]; exact hf) hrel (by rw [hb]; exact ⟨rfl, by omega⟩) (by rw [hrem, hmeas]; omega)

/-- **C68**, declared length.  If the body falls silent before it has yielded the `n` bytes that were declared, the transport has got the head and every byte that the body has
yielded. -/
theorem C68_fixed {hexLen : Nat → Nat} {resp : InnerResponse (Stall ρ)} {now : Bytes} (hw : resp.headers.WF) {n : Nat} (hl : resp.length = some n) (hlim : 8192 + n < usizeLimit) {r : ρ} {N : Nat}
    (hb : resp.body = .talk r N) (hf : fin r = none) (hn : (rem r).length < n) {w : Writer} (hrel : w.Reliable) {fuel : Nat} (h1 : 2 * ((headOf resp now).length + (rem r).length + meas r) + w.script.length < fuel) (h2 : fuel ≤ N) :
    ∃ w', sendResponse hexLen now fuel resp w = .ret (w', .running) ∧ w'.got = w.got ++ headOf resp now ++ rem r := by
  have hrem : rem resp.body = rem r := by rw [hb]; rfl
  have hmeas : meas resp.body = meas r + N := by rw [hb]; rfl
  rw [← hrem]
  exact fixed_naps hw hl hlim (Stall.naps N) (fun ⟨j, h⟩ => by rw [hb] at h; cases h) (by rw [hb]; exact hf) (by rw [hrem]; exact hn) hrel (by rw [hb]; exact ⟨rfl, by omega⟩) (by rw [hrem, hmeas]; omega)

/-- A body of two pieces, then silence. -/
def dozing (N : Nat) (length : Option Nat) : InnerResponse (Stall Script) :=
  { status := 200, headers := [], version := .http11, body := .talk [.data (ascii "hello"), .pending, .data (ascii " world")] N, length := length }

example : (dozing 1000 none).headers.WF ∧ fin ([.data (ascii "hello"), .pending, .data (ascii " world")] : Script) = none ∧ (⟨[.accept 8, .pending], [], 0⟩ : Writer).Reliable ∧
    2 * ((headOf (dozing 1000 none) (ascii "NOW")).length + 11 + 1 + 1) + 2 < 1000 := by
  refine ⟨HeaderMap.wf_nil, rfl, ?_, by decide +kernel⟩
  intro e he
  simp at he
  rcases he with rfl | rfl <;> exact ⟨by simp, by simp⟩

example : sendResponse exactHexLen (ascii "NOW") 1000 (dozing 1000 none) ⟨[.accept 8, .pending], [], 0⟩ =
    .ret (⟨[], ascii "HTTP/1.1 200 OK\r\ntransfer-encoding: chunked\r\ndate: NOW\r\ncontent-type: application/octet-stream\r\n\r\n5\r\nhello\r\n6\r\n world\r\n", 0⟩, .running) := by decide +kernel

example : (sendResponse exactHexLen (ascii "NOW") 1000 (dozing 1000 (some 20)) ⟨[.accept 8, .pending], [], 0⟩) =
    .ret (⟨[], ascii "HTTP/1.1 200 OK\r\ncontent-length: 20\r\ndate: NOW\r\ncontent-type: application/octet-stream\r\n\r\nhello world", 0⟩, .running) := by decide +kernel

end Tophat
