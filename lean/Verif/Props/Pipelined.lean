import Verif.Proofs.Pipelined
import Verif.Props.KeepAlive
/-!
# Properties C30 and C31 for requests that share a packet
-/

set_option linter.unusedSectionVars false
set_option synthInstance.maxSize 1000

namespace Tophat
open Spec

section
variable {σ : Type} [AsyncBufRead σ]

/-- **C30 is false of the code for every pipelined request**: a packet (of at most 8192 bytes) contains a request with its whole body and, behind it, any bytes `later`.  Whatever the endpoint and the rest
of the connection do, `accept` does the same as if `later` had not been sent: a request in `later` is not served. -/
theorem C30_refuted_behind {env : Env} {opts : ServerOpts} {endpoint : Endpoint σ} {fuel it n : Nat} {h body later : Bytes} {rest : Script} {w : Writer} {clock : List Bool}
    (hh : FirstHead h h) (hb : ∀ i m t fs len, Judged env.uriOk h (.serve i m t fs len) → len = some body.length) (hs : (h ++ body ++ later).length ≤ 8192) :
    acceptGo env opts endpoint fuel (it + 1) n ⟨.data (h ++ body ++ later) :: rest, w, clock⟩ = acceptGo env opts endpoint fuel (it + 1) n ⟨.data (h ++ body) :: rest, w, clock⟩ := by
  have hne : h ≠ [] := by
    rintro rfl
    obtain ⟨q, hq⟩ := hh.2.1
    simp at hq
  have hb' : HasBody env.uriOk h body := fun i m t fs len hj => ⟨_, hb i m t fs len hj, Nat.le_refl _⟩
  have h1 := script_packet (p := h ++ body ++ later) (by simp [hne]) hs rest
  have h2 := script_packet (p := h ++ body) (by simp [hne]) (by simp at hs ⊢; omega) rest
  rw [List.append_assoc] at h1
  rw [← List.append_nil body] at h2
  have := acceptGo_behind (env := env) (opts := opts) (endpoint := endpoint) (fuel := fuel) (n := n) (it := it) (w := w) (clock := clock) hh hb' h1 h2
  rw [List.append_nil] at this
  rw [List.append_assoc]
  exact this

/-- **C30 is false of the code for every pipelined request**: of any number of requests in one packet of at most 8192 bytes, after which the peer closes, at most one is served. -/
theorem C30_refuted_once {env : Env} (hx : HexLenOk env.hexLen) {opts : ServerOpts} {endpoint : Endpoint σ} {fuel it n : Nat} {h body later : Bytes} {w : Writer} {clock : List Bool}
    {c' : Conn Script} {ev : List Event} {res : AcceptRes}
    (hh : FirstHead h h) (hb : ∀ i m t fs len, Judged env.uriOk h (.serve i m t fs len) → len = some body.length) (hs : (h ++ body ++ later).length ≤ 8192)
    (hr : acceptGo env opts endpoint fuel it n ⟨[.data (h ++ body ++ later)], w, clock⟩ = .ret (c', ev, res)) : (calls ev).length ≤ 1 := by
  rw [List.append_assoc] at hr hs
  exact acceptGo_once hx hh (fun i m t fs len hj => ⟨_, hb i m t fs len hj, Nat.le_refl _⟩) hs hr

/-- **C31**, for a body that comes in one packet (of at most 8192 bytes) with its head: whatever the endpoint does, and whether or not it reads the body, what the server reads afterwards begins behind that packet.
Missing: bodies that come in later packets and are not read. -/
theorem C31_same_packet_partial {env : Env} {opts : ServerOpts} {endpoint : Endpoint σ} {fuel n : Nat} {h body later : Bytes} {rest : Script} {c c' : Conn Script} {ev : List Event} {res : Option AcceptRes}
    (hc : c.rd = .data (h ++ body ++ later) :: rest) (hh : FirstHead h h) (hb : ∀ i m t fs len, Judged env.uriOk h (.serve i m t fs len) → len = some body.length)
    (hs : (h ++ body ++ later).length ≤ 8192) (hr : acceptStep env opts endpoint fuel n c = .ret (c', ev, res)) : c'.rd = rest := by
  have hne : h ≠ [] := by
    rintro rfl
    obtain ⟨q, hq⟩ := hh.2.1
    simp at hq
  refine acceptStep_taken (x := body) (z := later) hh (fun i m t fs len hj => ⟨_, hb i m t fs len hj, Nat.le_refl _⟩) ?_ hr
  rw [hc]
  have := script_packet (p := h ++ body ++ later) (by simp [hne]) hs rest
  rw [List.append_assoc] at this ⊢
  exact this

end

/-! ## The hypotheses are met -/

/-- A `POST` with five bytes. -/
def postFive : Bytes := ascii "POST /p HTTP/1.1\r\nHost: x\r\nContent-Length: 5\r\n\r\n"

theorem postFive_body : ∀ i m t fs len, Judged demoEnv.uriOk postFive (.serve i m t fs len) → len = some (ascii "hello").length :=
  declared_length (r := []) (m0 := ascii "POST") (t0 := ascii "/p") (fs0 := [(ascii "Host", ascii "x"), (ascii "Content-Length", ascii "5")]) (v := ascii "5") (v0 := 1) (by decide +kernel) (by decide +kernel)
    (by decide +kernel) (by decide +kernel)

/-- A `POST` with its body and a `GET` in one packet, another `GET` in the next one: the one in the middle is lost, if the endpoint reads the body or not. -/
example : FirstHead postFive postFive ∧ (postFive ++ ascii "hello" ++ getA).length ≤ 8192 ∧
    watched plainOpts (reading [8]) 9 ⟨[.data (postFive ++ ascii "hello" ++ getA), .data getB], ⟨[], [], 0⟩, []⟩ =
      .ret ([.call ⟨ascii "POST", ascii "/p", [(ascii "host", [ascii "x"]), (ascii "content-length", [ascii "5"])]⟩ (some 5), .got 8 (.data (ascii "hello")),
        .wrote (responseHead .http11 200 [] (some 5) (ascii "NOW") ++ ascii "hello"), .call ⟨ascii "GET", ascii "/b", hostX⟩ (some 0), .got 8 (.data []), .wrote okEmpty], .ok) ∧
    watched plainOpts (reading []) 9 ⟨[.data (postFive ++ ascii "hello" ++ getA), .data getB], ⟨[], [], 0⟩, []⟩ =
      .ret ([.call ⟨ascii "POST", ascii "/p", [(ascii "host", [ascii "x"]), (ascii "content-length", [ascii "5"])]⟩ (some 5),
        .wrote okEmpty, .call ⟨ascii "GET", ascii "/b", hostX⟩ (some 0), .wrote okEmpty], .ok) := by
  refine ⟨by decide +kernel, by decide +kernel, by decide +kernel, by decide +kernel⟩

end Tophat
