import Verif.Spec.Matters
import Verif.Props.Case
import Verif.Props.Accept
/-!
# Properties C95 and C96: which header fields matter
-/

set_option linter.unusedSectionVars false

set_option synthInstance.maxSize 1000

namespace Tophat
open Spec

theorem heeded_values {k : Bytes} (hk : k ∈ heeded) (fs : List (Bytes × Bytes)) : valuesOf k fs = ((heededOf fs).filter fun f => f.1 == k).map (·.2) := by
  unfold valuesOf heededOf
  induction fs with
  | nil => rfl
  | cons f fs ih =>
    by_cases h : lower f.1 = k
    · have : heeded.contains (lower f.1) = true := by rw [h]; exact List.contains_iff_mem.2 hk
      rw [List.filter_cons_of_pos (by simpa using h), List.filter_cons_of_pos (by simpa using this), List.map_cons, List.map_cons, List.filter_cons_of_pos (by simpa using h), List.map_cons, ih]
    · rw [List.filter_cons_of_neg (by simpa using h), ih]
      by_cases h2 : heeded.contains (lower f.1) = true
      · rw [List.filter_cons_of_pos (p := fun f : Bytes × Bytes => heeded.contains (lower f.1)) h2, List.map_cons, List.filter_cons_of_neg (by simpa using h)]
      · rw [List.filter_cons_of_neg (p := fun f : Bytes × Bytes => heeded.contains (lower f.1)) h2]

theorem heeded_same {k : Bytes} (hk : k ∈ heeded) {fs gs : List (Bytes × Bytes)} (h : heededOf fs = heededOf gs) : valuesOf k fs = valuesOf k gs := by
  rw [heeded_values hk, heeded_values hk, h]

/-- The same field, but for the case of its name. -/
theorem same_bad {f g : Bytes × Bytes} (h1 : lower f.1 = lower g.1) (h2 : f.2 = g.2) : (BadLength f ↔ BadLength g) ∧ (BadCoding f ↔ BadCoding g) := by
  unfold BadLength BadCoding
  rw [h1, h2]
  exact ⟨Iff.rfl, Iff.rfl⟩

theorem bad_heeded {f : Bytes × Bytes} (h : ¬ GoodField f) : lower f.1 ∈ heeded := by
  refine Classical.byContradiction fun hn => h ⟨fun hb => hn ?_, fun hb => hn ?_⟩
  · rw [hb.1]; decide
  · rw [hb.1]; decide

theorem heeded_good {fs gs : List (Bytes × Bytes)} (h : heededOf fs = heededOf gs) (hg : ∀ f ∈ fs, GoodField f) : ∀ g ∈ gs, GoodField g := by
  intro g hgm
  refine Classical.byContradiction fun hb => ?_
  have hin : (lower g.1, g.2) ∈ heededOf gs := List.mem_map.2 ⟨g, List.mem_filter.2 ⟨hgm, List.contains_iff_mem.2 (bad_heeded hb)⟩, rfl⟩
  rw [← h] at hin
  obtain ⟨f, hf, e⟩ := List.mem_map.1 hin
  injection e with e1 e2
  obtain ⟨a, b⟩ := same_bad e1 e2
  have := hg f (List.mem_filter.1 hf).1
  exact hb ⟨fun h => this.1 (a.2 h), fun h => this.2 (b.2 h)⟩

/-- The first bad field is the first bad field of the other. -/
theorem heeded_split {pre post gs : List (Bytes × Bytes)} {f : Bytes × Bytes} (h : heededOf (pre ++ f :: post) = heededOf gs) (hf : ¬ GoodField f) :
    ∃ pre' g post', gs = pre' ++ g :: post' ∧ heededOf pre = heededOf pre' ∧ lower f.1 = lower g.1 ∧ f.2 = g.2 := by
  have hc : heeded.contains (lower f.1) = true := List.contains_iff_mem.2 (bad_heeded hf)
  unfold heededOf at h
  rw [List.filter_append, List.filter_cons_of_pos (p := fun f : Bytes × Bytes => heeded.contains (lower f.1)) hc, List.map_append, List.map_cons] at h
  obtain ⟨l1, l2, e1, e2, e3⟩ := List.map_eq_append_iff.1 h.symm
  obtain ⟨g, l3, rfl, e4, e5⟩ := List.map_eq_cons_iff.1 e3
  obtain ⟨p1, p2, rfl, e6, e7⟩ := List.filter_eq_append_iff.1 e1
  obtain ⟨q1, q2, rfl, e8, e9, e10⟩ := List.filter_eq_cons_iff.1 e7
  injection e4 with e4 e4'
  refine ⟨p1 ++ q1, g, q2, by simp, ?_, e4.symm, e4'.symm⟩
  unfold heededOf
  rw [List.filter_append, e6, List.filter_eq_nil_iff.2 e8, List.append_nil, e2]

/-- The verdict is the same. -/
theorem judged_heeded {uriOk : Bytes → Bool} {h h' m t : Bytes} {v : Nat} {fs gs : List (Bytes × Bytes)} (hh : HasHead h m t v fs) (hh' : HasHead h' m t v gs)
    (hr : heededOf fs = heededOf gs) {x : Verdict} (hj : Judged uriOk h x) :
    (∃ i st, x = .refuse i st ∧ Judged uriOk h' (.refuse i st)) ∨ (x = .giveUp ∧ Judged uriOk h' .giveUp) ∨
      ∃ i len, x = .serve i m t fs len ∧ Judged uriOk h' (.serve i m t gs len) := by
  have he : Expects fs = Expects gs := by unfold Expects; rw [heeded_same (by decide) hr]
  have hho : valuesOf (ascii "host") fs = valuesOf (ascii "host") gs := heeded_same (by decide) hr
  cases hj with
  | malformed a => exact absurd hh (a _ _ _ _)
  | noMethod a =>
    obtain ⟨rfl, rfl, rfl, rfl⟩ := a.unique hh
    exact .inl ⟨_, _, rfl, .noMethod hh'⟩
  | version a b c =>
    obtain ⟨rfl, rfl, rfl, rfl⟩ := a.unique hh
    exact .inl ⟨_, _, rfl, .version hh' b c⟩
  | length a b c d =>
    obtain ⟨rfl, rfl, rfl, rfl⟩ := a.unique hh
    obtain ⟨pre', g, post', rfl, h1, h2, h3⟩ := heeded_split hr (fun h => h.1 d)
    exact .inl ⟨_, _, rfl, .length hh' b (heeded_good h1 c) ((same_bad h2 h3).1.1 d)⟩
  | coding a b c d =>
    obtain ⟨rfl, rfl, rfl, rfl⟩ := a.unique hh
    obtain ⟨pre', g, post', rfl, h1, h2, h3⟩ := heeded_split hr (fun h => h.2 d)
    exact .inr (.inl ⟨rfl, .coding hh' b (heeded_good h1 c) ((same_bad h2 h3).2.1 d)⟩)
  | noHost a b c d =>
    obtain ⟨rfl, rfl, rfl, rfl⟩ := a.unique hh
    exact .inl ⟨_, _, rfl, by rw [he]; exact .noHost hh' b (heeded_good hr c) (by rw [← hho]; exact d)⟩
  | badTarget a b c d e =>
    obtain ⟨rfl, rfl, rfl, rfl⟩ := a.unique hh
    exact .inl ⟨_, _, rfl, by rw [he]; exact .badTarget hh' b (heeded_good hr c) (by rw [← hho]; exact d) e⟩
  | @serve m' t' fs' len' a b c d e f =>
    obtain ⟨rfl, rfl, rfl, rfl⟩ := a.unique hh
    have f' : BodyLength gs len' := by
      unfold BodyLength BodyLength.Plain at f ⊢
      rw [← heeded_same (k := ascii "transfer-encoding") (by decide) hr, ← heeded_same (k := ascii "content-length") (by decide) hr]
      exact f
    exact .inr (.inr ⟨_, _, rfl, by rw [he]; exact .serve hh' b (heeded_good hr c) (by rw [← hho]; exact d) e f'⟩)

section
variable {ρ : Type} [AsyncRead ρ] [LawfulRead ρ] {σ : Type} [AsyncBufRead σ]

/-- **C95.**  Two requests with the same method, target and version, and the same Host, Content-Length, Transfer-Encoding and Expect fields, are treated alike, whatever other fields they have, and wherever among the others these
are: both are answered by the server with the same bytes, or the endpoint is called with both, with all their fields, and the same length; and `accept` goes on, or ends, in the same way.
(The transports accept what is written, and no timeout fires.) -/
theorem C95_other_fields {ρ₂ : Type} [AsyncRead ρ₂] [LawfulRead ρ₂] {σ₂ : Type} [AsyncBufRead σ₂] {env : Env} (hx : HexLenOk env.hexLen)
    {opts opts₂ : ServerOpts} {endpoint : Endpoint σ} {endpoint₂ : Endpoint σ₂} {fuel fuel₂ n : Nat}
    {c c' : Conn ρ} {ev : List Event} {res : Option AcceptRes} {c₂ c₂' : Conn ρ₂} {ev₂ : List Event} {res₂ : Option AcceptRes} {h h₂ m t : Bytes} {v : Nat} {fs gs : List (Bytes × Bytes)}
    (hh : FirstHead (rem c.rd) h) (hh₂ : FirstHead (rem c₂.rd) h₂) (hr : c.wr.Reliable) (hr₂ : c₂.wr.Reliable)
    (ht : NoTimeout opts c) (ht₂ : NoTimeout opts₂ c₂)
    (hd : HasHead h m t v fs) (hd₂ : HasHead h₂ m t v gs) (hc : heededOf fs = heededOf gs)
    (hs : acceptStep env opts endpoint fuel n c = .ret (c', ev, res))
    (hs₂ : acceptStep env opts₂ endpoint₂ fuel₂ n c₂ = .ret (c₂', ev₂, res₂)) :
    Pairwise (AlikeBut fs gs) (upToCall ev) (upToCall ev₂) ∧ res = res₂ := by
  have a := acceptStep_spec hx hs
  have b := acceptStep_spec hx hs₂
  obtain ⟨x, hx⟩ := Judged.total env.uriOk h
  rcases judged_heeded hd hd₂ hc hx with ⟨i, st, rfl, hy⟩ | ⟨rfl, hy⟩ | ⟨i, len, rfl, hy⟩
  · obtain ⟨a1, a2, _⟩ := refused_inv a hh hx hr ht
    obtain ⟨b1, b2, _⟩ := refused_inv b hh₂ hy hr₂ ht₂
    refine ⟨?_, by rw [a1, b1]⟩
    rw [a2, b2]
    cases i
    · exact .cons rfl .nil
    · exact .cons rfl (.cons rfl .nil)
  · obtain ⟨a1, x, a2, _, _, a3⟩ := gaveUp_inv a hh hx ht
    obtain ⟨b1, y, b2, _, _, b3⟩ := gaveUp_inv b hh₂ hy ht₂
    refine ⟨?_, by rw [a1, b1]⟩
    rw [a2, b2, a3 hr, b3 hr₂]
    exact .cons rfl .nil
  · obtain ⟨a1, hm, a2⟩ := served_inv a hh hx (fun _ => hr) ht
    obtain ⟨b1, hm₂, b2⟩ := served_inv b hh₂ hy (fun _ => hr₂) ht₂
    have e1 := a2.headers
    have e2 := b2.headers
    obtain ⟨_, _, _, _, _, _, _, _, _, _, _, _, _, _, rfl⟩ := a2.run
    obtain ⟨_, _, _, _, _, _, _, _, _, _, _, _, _, _, rfl⟩ := b2.run
    refine ⟨?_, by rw [a1, b1]⟩
    have hcall : AlikeBut fs gs (.call ⟨m, t, hm⟩ len) (.call ⟨m, t, hm₂⟩ len) := ⟨rfl, rfl, rfl, e1, e2⟩
    cases i
    · exact .cons hcall .nil
    · exact .cons rfl (.cons hcall .nil)

/-- **C96 is false of the code**: a request that asks for the connection to be closed is served, and then the server goes on to wait for the next request (`none`: `accept` has not returned), whatever
the request is, and whatever the endpoint sends.  (By C29, `accept` returns only if the peer closes, sends an unknown transfer coding, or the timer fires.) -/
theorem C96_refuted {env : Env} (hx : HexLenOk env.hexLen) {opts : ServerOpts} {endpoint : Endpoint σ} {fuel n : Nat} {c c' : Conn ρ} {ev : List Event} {res : Option AcceptRes} {h m t : Bytes} {i : Bool}
    {fs : List (Bytes × Bytes)} {len : Option Nat} (hh : FirstHead (rem c.rd) h) (hj : Judged env.uriOk h (.serve i m t fs len)) (hr : c.wr.Reliable) (ht : NoTimeout opts c) (_hclose : AsksToClose fs)
    (hs : acceptStep env opts endpoint fuel n c = .ret (c', ev, res)) : (∃ hm, .call ⟨m, t, hm⟩ len ∈ ev) ∧ res = none := by
  obtain ⟨a1, hm, a2⟩ := served_inv (acceptStep_spec hx hs) hh hj (fun _ => hr) ht
  obtain ⟨_, _, _, _, _, _, _, _, _, _, _, _, _, _, rfl⟩ := a2.run
  exact ⟨⟨hm, by simp⟩, a1⟩

end

/-! ## Concrete cases -/

/-- A request that asks for the connection to be closed. -/
def closingGet : Bytes := ascii "GET /a HTTP/1.1\r\nHost: x\r\nConnection: Close\r\n\r\n"
/-- Its fields. -/
def closingFields : List (Bytes × Bytes) := [(ascii "Host", ascii "x"), (ascii "Connection", ascii "Close")]
/-- An endpoint that says that it will close the connection. -/
def closingEndpoint : Endpoint Cursor := fun _ _ => .send ⟨200, [(ascii "connection", [ascii "close"])], .http11, ⟨[]⟩, some 0⟩ (fun _ => .ok) fun _ => .glitch .new

theorem closing_head : HasHead closingGet (ascii "GET") (ascii "/a") 1 closingFields := hasHead_of (rest := []) (by decide +kernel)

theorem closing_asks : AsksToClose closingFields := ⟨ascii "Close", by decide, by unfold SameText; decide⟩

theorem closing_judged : Judged demoEnv.uriOk closingGet (.serve false (ascii "GET") (ascii "/a") closingFields (some 0)) := by
  refine .serve closing_head (by decide) ?_ (by decide) (by decide) rfl
  intro f hf
  simp only [closingFields, List.mem_cons, List.not_mem_nil, or_false] at hf
  rcases hf with rfl | rfl
  · exact ⟨fun h => absurd h.1 (by decide), fun h => absurd h.1 (by decide)⟩
  · exact ⟨fun h => absurd h.1 (by decide), fun h => absurd h.1 (by decide)⟩

/-- The same request with other fields. -/
def otherGet : Bytes := ascii "GET /a HTTP/1.1\r\nUpgrade: h2c\r\nKeep-Alive: timeout=5\r\nhost: x\r\n\r\n"

/-- All hypotheses of `C95_other_fields` and of `C96_refuted` are met. -/
example : ∃ c' ev c₂' ev₂, acceptStep demoEnv plainOpts closingEndpoint 1000 0 (connOf [closingGet]) = .ret (c', ev, none) ∧ acceptStep demoEnv plainOpts (reading []) 1000 0 (connOf [otherGet.take 9, otherGet.drop 9]) = .ret (c₂', ev₂, none) ∧
    Pairwise (AlikeBut closingFields [(ascii "Upgrade", ascii "h2c"), (ascii "Keep-Alive", ascii "timeout=5"), (ascii "host", ascii "x")]) (upToCall ev) (upToCall ev₂) := by
  have hw : ∀ frags, (connOf frags).wr.Reliable := by intro frags e he; simp [connOf] at he
  have f1 : FirstHead (rem (connOf [closingGet]).rd) closingGet := by
    show FirstHead (Script.bytes _) _
    decide +kernel
  have f2 : FirstHead (rem (connOf [otherGet.take 9, otherGet.drop 9]).rd) otherGet := by
    show FirstHead (Script.bytes _) _
    decide +kernel
  obtain ⟨⟨c', ev, res⟩, h1, h2⟩ := Run.bind_eq_ret.1 (show (acceptStep demoEnv plainOpts closingEndpoint 1000 0 (connOf [closingGet]) >>= fun x => .ret x.2.2.isNone) = .ret true by decide +kernel)
  obtain ⟨⟨c₂', ev₂, res₂⟩, g1, g2⟩ := Run.bind_eq_ret.1 (show (acceptStep demoEnv plainOpts (reading []) 1000 0 (connOf [otherGet.take 9, otherGet.drop 9]) >>= fun x => .ret x.2.2.isNone) = .ret true by decide +kernel)
  obtain ⟨k1, rfl⟩ := C95_other_fields (m := ascii "GET") (t := ascii "/a") (v := 1)
    (gs := [(ascii "Upgrade", ascii "h2c"), (ascii "Keep-Alive", ascii "timeout=5"), (ascii "host", ascii "x")]) exactHexLen_ok f1 f2 (hw _) (hw _) (.inl rfl) (.inl rfl) closing_head (hasHead_of (rest := []) (by decide +kernel)) (by decide +kernel) h1 g1
  obtain ⟨-, rfl⟩ := C96_refuted exactHexLen_ok f1 closing_judged (hw _) (.inl rfl) closing_asks h1
  exact ⟨c', ev, c₂', ev₂, h1, g1, k1⟩

/-- The request asks for the connection to be closed, the response says that it is going to be, and the next request is served all the same. -/
theorem C96_refuted_next : AsksToClose closingFields ∧ Judged demoEnv.uriOk closingGet (.serve false (ascii "GET") (ascii "/a") closingFields (some 0)) ∧
    ∃ c' : Conn Script, acceptGo demoEnv plainOpts closingEndpoint 1000 9 0 ⟨[.data closingGet, .data getB], ⟨[], [], 0⟩, []⟩ =
      .ret (c', [.call ⟨ascii "GET", ascii "/a", [(ascii "host", [ascii "x"]), (ascii "connection", [ascii "Close"])]⟩ (some 0), .wrote (responseHead .http11 200 [(ascii "connection", [ascii "close"])] (some 0) (ascii "NOW")),
        .call ⟨ascii "GET", ascii "/b", hostX⟩ (some 0), .wrote (responseHead .http11 200 [(ascii "connection", [ascii "close"])] (some 0) (ascii "NOW"))], .ok) :=
  ⟨closing_asks, closing_judged, watched_ret (by decide +kernel)⟩

end Tophat
