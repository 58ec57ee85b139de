import Verif.Proofs.ClientDecode
import Verif.Proofs.HeadCases
import Verif.Props.ChunkedRequest
/-!
# Properties C53, C54, C63, C64: what `client::connect` makes of a response

`ClientDecode.decode now pool fuel io` is the second part of `connect`: reading the response from the connection `io`, stopped after `fuel` reads
of its buffer.  `rem io` are all the bytes the peer is ever going to send, `fin io` is how the connection ends, and `FirstReply (rem io) h` says that
`h` is what they begin with, up to and including the first empty line.  The reader is any reader that obeys the `AsyncRead` contract, so all fragmentations and
delays are covered.
-/

set_option linter.unusedSectionVars false
set_option synthInstance.maxSize 1000

namespace Tophat
open Spec

/-! ## Concrete material -/

/-- A connection that delivers the given fragments. -/
def replyOf (frags : List Bytes) : Script := frags.flatMap fun f => [.data f, .pending]

/-- Status, headers, declared length and the answers when reading the body. -/
def replySeen (frags : List Bytes) (ks : List Nat) : Run (Option (Nat × HeaderMap × Option Nat × List RPoll)) := do
  let d ← ClientDecode.decode (ascii "NOW") zeroPool 100 (replyOf frags)
  match d with
  | .done (.ok r) => do
    let (_, ps) ← polls r.body ks
    .ret (some (r.status, r.headers, r.length, ps))
  | _ => .ret none

/-- Whether `decode` returned an error. -/
def replyFails (frags : List Bytes) : Run Bool := do
  let d ← ClientDecode.decode (ascii "NOW") zeroPool 100 (replyOf frags)
  match d with
  | .done (.err _) => .ret true
  | _ => .ret false

theorem endsReply_iff (h : Bytes) : EndsReply h ↔ (4 ≤ h.length ∧ h.drop (h.length - 4) = [13, 10, 13, 10]) ∨ (2 ≤ h.length ∧ h.drop (h.length - 2) = [10, 10]) := by
  rw [← clientEndsHead_iff]
  unfold ClientDecode.endsHead
  rw [Bool.or_eq_true, decide_eq_true_eq, decide_eq_true_eq]
  rfl

instance (h : Bytes) : Decidable (EndsReply h) := decidable_of_iff _ (endsReply_iff h).symm

theorem firstReply_iff (s h : Bytes) : FirstReply s h ↔ h = s.take h.length ∧ EndsReply h ∧ ∀ i ∈ List.range h.length, ¬ EndsReply (h.take i) := by
  unfold FirstReply
  constructor
  · rintro ⟨h1, h2, h3⟩
    refine ⟨List.prefix_iff_eq_take.1 h1, h2, ?_⟩
    intro i hi he
    rw [List.mem_range] at hi
    have := h3 _ (List.take_prefix i h) he
    have := congrArg List.length this
    rw [List.length_take] at this
    omega
  · rintro ⟨h1, h2, h3⟩
    refine ⟨List.prefix_iff_eq_take.2 h1, h2, ?_⟩
    intro p hp he
    have hle := hp.length_le
    rcases Nat.lt_or_ge p.length h.length with hlt | hge
    · exact absurd (by rw [← List.prefix_iff_eq_take.1 hp]; exact he) (h3 p.length (List.mem_range.2 hlt))
    · exact hp.eq_of_length (by omega)

instance (s h : Bytes) : Decidable (FirstReply s h) := decidable_of_iff _ (firstReply_iff s h).symm

theorem hasReply_of {h rest : Bytes} {v c : Nat} {fs : List (Bytes × Bytes)} (hp : Httparse.parseResponse 128 h = .ok rest ⟨v, c, fs⟩) : HasReply h v c fs :=
  (hasReply_iff _ _ _ _).2 ⟨rest, hp⟩

section
variable {ρ : Type} [AsyncRead ρ] [LawfulRead ρ]

/-! ## C54 -/

/-- There is one verdict only. -/
theorem Spec.ReplyTo.unique {h : Bytes} {v v' : Reply} (a : ReplyTo h v) (b : ReplyTo h v') : v = v' := by
  cases a with
  | malformed a =>
    cases b with
    | malformed _ => rfl
    | version b _ | ambiguous b _ | length b _ _ | status b _ _ | chunked b _ _ | fixed b _ _ _ _ | bare b _ _ _ => exact absurd b (a _ _ _)
  | version a a2 =>
    cases b with
    | malformed b => exact absurd a (b _ _ _)
    | version _ _ | ambiguous _ _ | length _ _ _ | status _ _ _ => rfl
    | chunked b _ _ | fixed b _ _ _ _ | bare b _ _ _ => exact absurd (a.unique b).1 a2
  | ambiguous a a2 =>
    cases b with
    | malformed b => exact absurd a (b _ _ _)
    | version _ _ | ambiguous _ _ | length _ _ _ | status _ _ _ => rfl
    | chunked b b2 _ | fixed b b2 _ _ _ => obtain ⟨-, -, rfl⟩ := a.unique b; exact absurd a2 b2
    | bare b _ b2 _ => obtain ⟨-, -, rfl⟩ := a.unique b; exact absurd b2 a2.1
  | length a a2 a3 =>
    cases b with
    | malformed b => exact absurd a (b _ _ _)
    | version _ _ | ambiguous _ _ | length _ _ _ | status _ _ _ => rfl
    | chunked b b2 b3 =>
      obtain ⟨-, -, rfl⟩ := a.unique b
      refine absurd ⟨?_, ?_⟩ b2
      · intro h; rw [h] at a2; cases a2
      · intro h; unfold SaysChunked at b3; rw [h] at b3; cases b3
    | fixed b b2 b3 b4 _ =>
      obtain ⟨-, -, rfl⟩ := a.unique b
      rw [a2] at b3; injection b3 with b3; subst b3
      exact absurd b4 (a3 _)
    | bare b _ b2 _ => obtain ⟨-, -, rfl⟩ := a.unique b; rw [b2] at a2; cases a2
  | status a a2 a3 =>
    cases b with
    | malformed b => exact absurd a (b _ _ _)
    | version _ _ | ambiguous _ _ | length _ _ _ | status _ _ _ => rfl
    | chunked b _ b2 => obtain ⟨-, -, rfl⟩ := a.unique b; exact absurd b2 a2
    | fixed b _ _ _ b2 | bare b _ _ b2 => obtain ⟨-, rfl, -⟩ := a.unique b; omega
  | chunked a a2 a3 =>
    cases b with
    | malformed b => exact absurd a (b _ _ _)
    | version b b2 => exact absurd (b.unique a).1 b2
    | ambiguous b b2 => obtain ⟨-, -, rfl⟩ := a.unique b; exact absurd b2 a2
    | length b b2 _ =>
      obtain ⟨-, -, rfl⟩ := a.unique b
      refine absurd ⟨?_, ?_⟩ a2
      · intro h; rw [h] at b2; cases b2
      · intro h; unfold SaysChunked at a3; rw [h] at a3; cases a3
    | status b b2 _ => obtain ⟨-, -, rfl⟩ := a.unique b; exact absurd a3 b2
    | chunked _ _ _ => rfl
    | fixed b _ b2 _ _ =>
      obtain ⟨-, -, rfl⟩ := a.unique b
      refine absurd ⟨?_, ?_⟩ a2
      · intro h; rw [h] at b2; cases b2
      · intro h; unfold SaysChunked at a3; rw [h] at a3; cases a3
    | bare b b2 _ _ => obtain ⟨-, -, rfl⟩ := a.unique b; exact absurd a3 b2
  | fixed a a2 a3 a4 a5 =>
    cases b with
    | malformed b => exact absurd a (b _ _ _)
    | version b b2 => exact absurd (b.unique a).1 b2
    | ambiguous b b2 => obtain ⟨-, -, rfl⟩ := a.unique b; exact absurd b2 a2
    | length b b2 b3 =>
      obtain ⟨-, -, rfl⟩ := a.unique b
      rw [a3] at b2; injection b2 with b2; subst b2
      exact absurd a4 (b3 _)
    | status b _ b2 => obtain ⟨-, rfl, -⟩ := a.unique b; omega
    | chunked b _ b3 =>
      obtain ⟨-, -, rfl⟩ := a.unique b
      refine absurd ⟨?_, ?_⟩ a2
      · intro h; rw [h] at a3; cases a3
      · intro h; unfold SaysChunked at b3; rw [h] at b3; cases b3
    | fixed b _ b2 b3 _ =>
      obtain ⟨-, rfl, rfl⟩ := a.unique b
      rw [a3] at b2; injection b2 with b2; subst b2
      rw [a4.unique b3]
    | bare b _ b2 _ => obtain ⟨-, -, rfl⟩ := a.unique b; rw [b2] at a3; cases a3
  | bare a a2 a3 a4 =>
    cases b with
    | malformed b => exact absurd a (b _ _ _)
    | version b b2 => exact absurd (b.unique a).1 b2
    | ambiguous b b2 => obtain ⟨-, -, rfl⟩ := a.unique b; exact absurd a3 b2.1
    | length b b2 _ => obtain ⟨-, -, rfl⟩ := a.unique b; rw [a3] at b2; cases b2
    | status b _ b2 => obtain ⟨-, rfl, -⟩ := a.unique b; omega
    | chunked b _ b2 => obtain ⟨-, -, rfl⟩ := a.unique b; exact absurd b2 a2
    | fixed b _ b2 _ _ => obtain ⟨-, -, rfl⟩ := a.unique b; rw [a3] at b2; cases b2
    | bare b _ _ _ => obtain ⟨-, rfl, rfl⟩ := a.unique b; rfl

/-- The bytes of a connection that `connect` answers with an error: no head, a head of 8 KiB or more, or a head that is not acceptable. -/
def Rejected (s : Bytes) : Prop := NoReply s ∨ ∃ h, FirstReply s h ∧ (8192 ≤ h.length ∨ ReplyTo h .reject)

/-- **C54.**  Reading a response returns after finitely many steps, however the response is fragmented and delayed; and it returns an error
exactly if the bytes that the peer sends are `Rejected`. -/
theorem C54_iff (now : Bytes) (pool : Pool) {io : ρ} {fuel : Nat} (hf : 2 * (rem io).length + meas io < fuel) :
    ∃ r, ClientDecode.decode now pool fuel io = .ret (.done r) ∧ ((∃ e, r = .err e) ↔ Rejected (rem io)) := by
  obtain ⟨d, h1, h2⟩ := clientDecode_spec now pool fuel io
  cases h2 with
  | running a b c d f => omega
  | none a => exact ⟨_, h1, ⟨fun _ => .inl a, fun _ => ⟨_, rfl⟩⟩⟩
  | long a b c =>
    refine ⟨_, h1, ⟨fun _ => ?_, fun _ => ⟨_, rfl⟩⟩⟩
    by_cases hh : ∃ h, FirstReply (rem io) h
    · obtain ⟨h, hh⟩ := hh; exact .inr ⟨h, hh, .inl (c h hh)⟩
    · left
      intro p hp he
      apply hh
      have key : ∀ n, ∀ p : Bytes, p.length ≤ n → p <+: rem io → EndsReply p → ∃ h, FirstReply (rem io) h := by
        intro n
        induction n with
        | zero =>
          intro p hp0 _ he
          have : p = [] := List.length_eq_zero_iff.1 (by omega)
          subst this
          exact absurd he (noReply_nil [] (List.prefix_refl _))
        | succ n ih =>
          intro p hpn hp he
          by_cases hq : ∃ q, q <+: p ∧ EndsReply q ∧ q ≠ p
          · obtain ⟨q, q1, q2, q3⟩ := hq
            refine ih q ?_ (q1.trans hp) q2
            have := q1.length_le
            rcases Nat.lt_or_ge q.length p.length with hlt | hge
            · omega
            · exact absurd (q1.eq_of_length (by omega)) q3
          · refine ⟨p, hp, he, ?_⟩
            intro q q1 q2
            exact Decidable.byContradiction fun q3 => hq ⟨q, q1, q2, q3⟩
      exact key _ p (Nat.le_refl _) hp he
  | reject a b c => exact ⟨_, h1, ⟨fun _ => .inr ⟨_, a, .inr c⟩, fun _ => ⟨_, rfl⟩⟩⟩
  | response a b c d f =>
    refine ⟨_, h1, ⟨fun ⟨e, he⟩ => (by cases he), fun hr => ?_⟩⟩
    exfalso
    rcases hr with hr | ⟨h', h2, h3 | h3⟩
    · exact a.not_noReply hr
    · have := a.unique h2; subst this; omega
    · have := a.unique h2; subst this
      have := c.unique h3
      subst this
      cases f

/-- **C54**, the four cases of the property. -/
theorem C54_cases {s h : Bytes} {v code : Nat} {fs : List (Bytes × Bytes)} :
    (NoReply s → Rejected s) ∧ (FirstReply s h → 8192 ≤ h.length → Rejected s) ∧ (FirstReply s h → HasReply h v code fs → v ≠ 1 → Rejected s) ∧
    (FirstReply s h → HasReply h v code fs → valuesOf (ascii "content-length") fs ≠ [] → valuesOf (ascii "transfer-encoding") fs ≠ [] → Rejected s) := by
  refine ⟨.inl, fun h1 h2 => .inr ⟨h, h1, .inl h2⟩, fun h1 h2 h3 => .inr ⟨h, h1, .inr (.version h2 h3)⟩, fun h1 h2 h3 h4 => .inr ⟨h, h1, .inr ?_⟩⟩
  by_cases hv : v = 1
  · subst hv; exact .ambiguous h2 ⟨h3, h4⟩
  · exact .version h2 hv

/-! ## C53 -/

/-- C53 is false of the code: every response that says chunked is returned with status 200 and without any header. -/
theorem C53_refuted_chunked {now : Bytes} {pool : Pool} {io : ρ} {fuel : Nat} {res : ClientResponse ρ} (hd : ClientDecode.decode now pool fuel io = .ret (.done (.ok res)))
    {h : Bytes} {code : Nat} {fs : List (Bytes × Bytes)} (hh : FirstReply (rem io) h) (hr : HasReply h 1 code fs) (hc : SaysChunked fs) :
    res.status = 200 ∧ res.headers = [] := by
  obtain ⟨d, h1, h2⟩ := clientDecode_spec now pool fuel io
  rw [hd] at h1
  injection h1 with h1
  subst h1
  cases h2 with
  | response a b c d f =>
    have := a.unique hh
    subst this
    cases f with
    | chunked => exact ⟨rfl, rfl⟩
    | fixed =>
      cases c with
      | fixed c1 c2 c3 =>
        obtain ⟨-, -, rfl⟩ := hr.unique c1
        refine absurd ⟨?_, ?_⟩ c2
        · intro h; rw [h] at c3; cases c3
        · intro h; unfold SaysChunked at hc; rw [h] at hc; cases hc
    | bare =>
      cases c with
      | bare c1 c2 =>
        obtain ⟨-, -, rfl⟩ := hr.unique c1
        exact absurd hc c2

/-- **C53**, as far as it holds: a response that does not say chunked is returned with the status and the headers that the peer sent, and a date if it sent none. -/
theorem C53_returned_partial {now : Bytes} {pool : Pool} {io : ρ} {fuel : Nat} {res : ClientResponse ρ} (hd : ClientDecode.decode now pool fuel io = .ret (.done (.ok res))) :
    ∃ h code fs, FirstReply (rem io) h ∧ HasReply h 1 code fs ∧ (¬ SaysChunked fs → res.status = code ∧ MapOf res.headers (withDate fs now)) := by
  obtain ⟨d, h1, h2⟩ := clientDecode_spec now pool fuel io
  rw [hd] at h1
  injection h1 with h1
  subst h1
  cases h2 with
  | response a b c d f =>
    cases f with
    | chunked =>
      cases c with
      | chunked c1 _ c2 => exact ⟨_, _, _, a, c1, fun h => absurd c2 h⟩
    | fixed f1 =>
      cases c with
      | fixed c1 _ _ => exact ⟨_, _, _, a, c1, fun _ => ⟨rfl, f1⟩⟩
    | bare f1 =>
      cases c with
      | bare c1 _ => exact ⟨_, _, _, a, c1, fun _ => ⟨rfl, f1⟩⟩

/-! ## C63 -/

/-- C63 is false of the code: the body of a response without Content-Length that is not chunked reads as empty, whatever the peer sends behind the head. -/
theorem C63_refuted_lost {now : Bytes} {pool : Pool} {io : ρ} {fuel : Nat} {res : ClientResponse ρ} (hd : ClientDecode.decode now pool fuel io = .ret (.done (.ok res)))
    {h : Bytes} {code : Nat} {fs : List (Bytes × Bytes)} (hh : FirstReply (rem io) h) (hr : HasReply h 1 code fs) (hc : ¬ SaysChunked fs)
    (hl : valuesOf (ascii "content-length") fs = []) {ks : List Nat} {b : ReplyBody ρ} {ps : List RPoll} (hp : polls res.body ks = .ret (b, ps)) : received ps = [] := by
  obtain ⟨d, h1, h2⟩ := clientDecode_spec now pool fuel io
  rw [hd] at h1
  injection h1 with h1
  subst h1
  cases h2 with
  | response a b' c d f =>
    have := a.unique hh
    subst this
    have := c.unique (.bare hr hc hl (by
      have hc' := c
      cases c with
      | malformed c => exact absurd hr (c _ _ _)
      | version c1 c2 => cases f
      | ambiguous c1 c2 => cases f
      | length => cases f
      | status => cases f
      | chunked c1 _ c2 => obtain ⟨-, -, rfl⟩ := hr.unique c1; exact absurd c2 hc
      | fixed c1 _ c2 => obtain ⟨-, -, rfl⟩ := hr.unique c1; rw [hl] at c2; cases c2
      | bare c1 _ _ c2 => obtain ⟨-, rfl, -⟩ := hr.unique c1; exact c2))
    subst this
    cases f with
    | bare =>
      obtain ⟨ps', h1, h2⟩ := polls_empty (ρ := ρ) ks
      dsimp only at hp
      rw [h1] at hp
      simp only [Run.ret.injEq, Prod.mk.injEq] at hp
      obtain ⟨-, rfl⟩ := hp
      clear h1
      induction ps' with
      | nil => rfl
      | cons p ps ih =>
        have := h2 p (by simp)
        subst this
        simp only [received, List.nil_append]
        exact ih (fun p hp => h2 p (List.mem_cons_of_mem _ hp))

/-- **C63**, for bodies of declared length (of several values the first counts): reading yields a prefix of the `n` bytes that follow the head; an error only if the
transport fails before they have come; when the end is seen (with non-empty buffers) all `n` bytes have been received, or all there are if the peer
closed the connection before; and one or the other is seen at the latest at the read number `n + meas io + 1`. -/
theorem C63_fixed_partial {now : Bytes} {pool : Pool} {io : ρ} {fuel : Nat} {res : ClientResponse ρ} (hd : ClientDecode.decode now pool fuel io = .ret (.done (.ok res)))
    {h rest v : Bytes} {code n : Nat} {fs : List (Bytes × Bytes)} (hh : FirstReply (rem io) h) (hrest : rem io = h ++ rest) (hr : HasReply h 1 code fs)
    (hl : (valuesOf (ascii "content-length") fs).head? = some v) (hn : IsLength v n) {ks : List Nat} {b : ReplyBody ρ} {ps : List RPoll} (hp : polls res.body ks = .ret (b, ps)) :
    res.length = some n ∧ received ps <+: rest.take n ∧
    (∀ x, .err x ∈ ps → received ps = rest ∧ rest.length < n ∧ fin io = some x) ∧
    ((∀ k ∈ ks, 0 < k) → SawEof ps → received ps = rest.take n ∧ (rest.length < n → fin io = none)) ∧
    ((∀ k ∈ ks, 0 < k) → n + meas io < ks.length → SawEof ps ∨ ∃ x, .err x ∈ ps) := by
  obtain ⟨d, h1, h2⟩ := clientDecode_spec now pool fuel io
  rw [hd] at h1
  injection h1 with h1
  subst h1
  cases h2 with
  | response a b' c d f =>
    have := a.unique hh
    subst this
    rename_i t
    have ht : t = rest := by rw [d] at hrest; exact List.append_cancel_left hrest
    subst ht
    cases f with
    | fixed f1 f2 =>
      cases c with
      | fixed c1 c2 c3 c4 =>
        obtain ⟨-, -, rfl⟩ := hr.unique c1
        rw [hl] at c3; injection c3 with c3; subst c3
        have := hn.unique c4
        subst this
        obtain ⟨x, rfl, hp'⟩ := polls_stream hp
        obtain ⟨k1, k2, k3, k4⟩ := f2.fixed_reads hp'
        refine ⟨rfl, k1, k2, k3, fun hk hlen => k4 hk ?_⟩
        have := List.length_take_le n t
        omega
    | bare =>
      cases c with
      | bare c1 _ c2 => obtain ⟨-, -, rfl⟩ := hr.unique c1; rw [c2] at hl; cases hl
    | chunked =>
      cases c with
      | chunked c1 c2 c3 =>
        obtain ⟨-, -, rfl⟩ := hr.unique c1
        refine absurd ⟨?_, ?_⟩ c2
        · intro h; rw [h] at hl; cases hl
        · intro h; unfold SaysChunked at c3; rw [h] at c3; cases c3

/-- **C63**, for chunked bodies: reading yields a prefix of bytes that the chunks behind the head carry. -/
theorem C63_chunked_prefix {now : Bytes} {pool : Pool} (hpool : pool.Ok) {io : ρ} {fuel : Nat} {res : ClientResponse ρ} (hd : ClientDecode.decode now pool fuel io = .ret (.done (.ok res)))
    {h rest : Bytes} {code : Nat} {fs : List (Bytes × Bytes)} (hh : FirstReply (rem io) h) (hrest : rem io = h ++ rest) (hr : HasReply h 1 code fs) (hc : SaysChunked fs)
    {ks : List Nat} {b : ReplyBody ρ} {ps : List RPoll} (hp : polls res.body ks = .ret (b, ps)) : ∃ x, Carries rest x ∧ received ps <+: x := by
  obtain ⟨d, h1, h2⟩ := clientDecode_spec now pool fuel io
  rw [hd] at h1
  injection h1 with h1
  subst h1
  cases h2 with
  | response a b' c d f =>
    have := a.unique hh
    subst this
    rename_i t
    have ht : t = rest := by rw [d] at hrest; exact List.append_cancel_left hrest
    subst ht
    cases f with
    | chunked f1 =>
      obtain ⟨x, rfl, hp'⟩ := polls_stream hp
      obtain ⟨r, t', e1, _, _, e2⟩ := f1.chunked_polls hp'
      rw [← e1]
      exact chunked_prefix hpool e2
    | fixed =>
      cases c with
      | fixed c1 c2 c3 =>
        obtain ⟨-, -, rfl⟩ := hr.unique c1
        refine absurd ⟨?_, ?_⟩ c2
        · intro h; rw [h] at c3; cases c3
        · intro h; unfold SaysChunked at hc; rw [h] at hc; cases hc
    | bare =>
      cases c with
      | bare c1 c2 =>
        obtain ⟨-, -, rfl⟩ := hr.unique c1
        exact absurd hc c2

/-- **C63**, for a complete chunked body `b` behind the head whose framing takes at most 4096 bytes: reading with non-empty buffers yields a prefix of its payload; when the end (or an error) is seen,
all of it; and that is the case at the latest at the read number `p.length + meas io + 1`. -/
theorem C63_chunked_partial {now : Bytes} {pool : Pool} (hpool : pool.Ok) {io : ρ} {fuel : Nat} {res : ClientResponse ρ} (hd : ClientDecode.decode now pool fuel io = .ret (.done (.ok res)))
    {h b x p : Bytes} {code : Nat} {fs ts : List (Bytes × Bytes)} (hh : FirstReply (rem io) h) (hr : HasReply h 1 code fs) (hc : SaysChunked fs)
    (hb : Roomy b p ts) (hts : ts.length ≤ 16) (hrest : rem io = h ++ (b ++ x))
    {ks : List Nat} (hk : ∀ k ∈ ks, 0 < k) {b' : ReplyBody ρ} {ps : List RPoll} (hp : polls res.body ks = .ret (b', ps)) :
    received ps <+: p ∧ (SawEof ps ∨ (∃ e, .err e ∈ ps) → received ps = p) ∧ (p.length + meas io < ks.length → SawEof ps ∨ ∃ e, .err e ∈ ps) := by
  obtain ⟨d, h1, h2⟩ := clientDecode_spec now pool fuel io
  rw [hd] at h1
  injection h1 with h1
  subst h1
  cases h2 with
  | response a b2 c d f =>
    have := a.unique hh
    subst this
    rename_i t
    have ht : t = b ++ x := by rw [d] at hrest; exact List.append_cancel_left hrest
    subst ht
    cases f with
    | chunked f1 =>
      obtain ⟨y, rfl, hp'⟩ := polls_stream hp
      obtain ⟨r, t', e1, _, e3, e2⟩ := f1.chunked_polls hp'
      obtain ⟨g1, g2, g3⟩ := chunked_roomy hpool hk e2 hb hts e1
      exact ⟨g1, g2, fun hl => g3 (by omega)⟩
    | fixed =>
      cases c with
      | fixed c1 c2 c3 =>
        obtain ⟨-, -, rfl⟩ := hr.unique c1
        refine absurd ⟨?_, ?_⟩ c2
        · intro h; rw [h] at c3; cases c3
        · intro h; unfold SaysChunked at hc; rw [h] at hc; cases hc
    | bare =>
      cases c with
      | bare c1 c2 =>
        obtain ⟨-, -, rfl⟩ := hr.unique c1
        exact absurd hc c2

/-! ## C64 -/

/-- **C64**, as far as it holds: at every moment of reading the head, what is held in memory of it is less than 8 KiB of complete lines, and the current line. -/
theorem C64_lines_partial {now : Bytes} {pool : Pool} {io : ρ} {fuel : Nat} {buf : Bytes} (hd : ClientDecode.decode now pool fuel io = .ret (.running buf)) :
    ∃ done line, buf = done ++ line ∧ done.length < 8192 ∧ (10 : UInt8) ∉ line ∧ buf <+: rem io := by
  obtain ⟨d, h1, h2⟩ := clientDecode_spec now pool fuel io
  rw [hd] at h1
  injection h1 with h1
  subst h1
  generalize hx : ClientDecode.Res.running buf = d at h2
  cases h2 with
  | running a b c d f =>
    injection hx with hx
    exact ⟨_, _, hx, c, d, hx ▸ b⟩
  | none | long | reject | response => cases hx

end

/-- C64 is false of the code: a peer that never ends its first line makes the client hold any amount of it. -/
theorem C64_refuted (now : Bytes) (pool : Pool) (N : Nat) : ∃ (io : Script) (fuel : Nat) (buf : Bytes),
    ClientDecode.decode now pool fuel io = .ret (.running buf) ∧ N ≤ buf.length := by
  have key : ∀ k (io : Script) (a : Bytes) (m : Nat), ∃ n, ClientDecode.headGo k (⟨List.replicate k (Ev.data [65]) ++ io, []⟩ : BufRd Script) a m =
      .ret (.running (a ++ List.replicate k 65)) ∧ n = m + k := by
    intro k
    induction k with
    | zero => intro io a m; exact ⟨_, by simp [ClientDecode.headGo], rfl⟩
    | succ k ih =>
      intro io a m
      refine ⟨_, ?_, rfl⟩
      have hf : pollFill (⟨List.replicate (k + 1) (Ev.data [65]) ++ io, []⟩ : BufRd Script) = .ret (⟨List.replicate k (Ev.data [65]) ++ io, [65]⟩, .data [65]) := by
        rw [List.replicate_succ, List.cons_append]; rfl
      simp only [ClientDecode.headGo, hf, Run.ret_bind]
      have hl : lineOf [65] = none := by decide
      simp only [hl, if_neg (List.cons_ne_nil _ _)]
      have hc : consume (⟨List.replicate k (Ev.data [65]) ++ io, [65]⟩ : BufRd Script) [(65 : UInt8)].length = ⟨List.replicate k (Ev.data [65]) ++ io, []⟩ := rfl
      rw [hc]
      obtain ⟨n, h, -⟩ := ih io (a ++ [65]) (m + [(65 : UInt8)].length)
      rw [h]
      simp [List.replicate_succ]
  refine ⟨List.replicate N (Ev.data [65]) ++ [], N, List.replicate N 65, ?_, by simp⟩
  unfold ClientDecode.decode
  obtain ⟨n, h, -⟩ := key N [] [] 0
  have : (BufRd.new (List.replicate N (Ev.data [65]) ++ [])) = (⟨List.replicate N (Ev.data [65]) ++ [], []⟩ : BufRd Script) := rfl
  rw [this, h]
  simp

/-! ## Concrete cases -/

def okHead : Bytes := ascii "HTTP/1.1 404 Not Found\r\nX-A: 1\r\nContent-Length: 5\r\n\r\n"
def okFields : List (Bytes × Bytes) := [(ascii "X-A", ascii "1"), (ascii "Content-Length", ascii "5")]

/-- A response in three fragments, with more behind it. -/
example : FirstReply (rem (replyOf [okHead.take 30, okHead.drop 30 ++ ascii "he", ascii "lloHTTP"])) okHead ∧ HasReply okHead 1 404 okFields ∧ ¬ SaysChunked okFields ∧
    (valuesOf (ascii "content-length") okFields).head? = some (ascii "5") ∧ IsLength (ascii "5") 5 ∧
    replySeen [okHead.take 30, okHead.drop 30 ++ ascii "he", ascii "lloHTTP"] [3, 3, 8, 8, 8] =
      .ret (some (404, [(ascii "x-a", [ascii "1"]), (ascii "content-length", [ascii "5"]), (ascii "date", [ascii "NOW"])], some 5,
        [.data (ascii "he"), .pending, .data (ascii "llo"), .data [], .data []])) := by
  refine ⟨?_, hasReply_of (rest := []) (by decide +kernel), by unfold SaysChunked; decide, by decide, ⟨ascii "5", .inl rfl, by decide, by decide, by decide, by decide⟩, by decide +kernel⟩
  show FirstReply (Script.bytes _) _; decide +kernel

def chunkedHead : Bytes := ascii "HTTP/1.1 404 Not Found\r\nX-A: 1\r\nTransfer-Encoding: chunked\r\n\r\n"

/-- C53 is false of the code: a chunked 404 comes back as a 200 without headers.  (Its body is delivered.) -/
example : FirstReply (rem (replyOf [chunkedHead ++ ascii "3\r\nabc\r\n0\r\n\r\n"])) chunkedHead ∧
    HasReply chunkedHead 1 404 [(ascii "X-A", ascii "1"), (ascii "Transfer-Encoding", ascii "chunked")] ∧ SaysChunked [(ascii "X-A", ascii "1"), (ascii "Transfer-Encoding", ascii "chunked")] ∧
    Body (ascii "3\r\nabc\r\n0\r\n\r\n") (ascii "abc") [] ∧
    replySeen [chunkedHead ++ ascii "3\r\nabc\r\n0\r\n\r\n"] [8, 8] = .ret (some (200, [], none, [.data (ascii "abc"), .data []])) := by
  refine ⟨?_, hasReply_of (rest := []) (by decide +kernel), by unfold SaysChunked; decide, ?_, by decide +kernel⟩
  · show FirstReply (Script.bytes _) _; decide +kernel
  · have h1 : SizeLine (ascii "3\r\n") (ascii "abc").length := ⟨ascii "3", [], [], by decide, by decide, by decide, by simp, .inl rfl⟩
    exact ⟨ascii "3\r\nabc\r\n", ascii "0\r\n", ascii "\r\n", by decide, .cons h1 (by decide) .nil, lastLine, .blank (.inl rfl)⟩

/-- The coding is compared with case, and only its first value counts; the body is then lost. -/
example : replySeen [ascii "HTTP/1.1 200 OK\r\nTransfer-Encoding: Chunked\r\n\r\n3\r\nabc\r\n0\r\n\r\n"] [8] =
    .ret (some (200, [(ascii "transfer-encoding", [ascii "Chunked"]), (ascii "date", [ascii "NOW"])], some 0, [.data []])) := by decide +kernel

/-- C63 is false of the code: a body that ends with the connection is lost. -/
example : replySeen [ascii "HTTP/1.1 200 OK\r\n\r\nhello"] [8] = .ret (some (200, [(ascii "date", [ascii "NOW"])], some 0, [.data []])) := by decide +kernel

/-- An interim response is taken for the response. -/
theorem C53_refuted_interim : replySeen [ascii "HTTP/1.1 100 Continue\r\n\r\nHTTP/1.1 404 Not Found\r\ncontent-length: 0\r\n\r\n"] [] =
    .ret (some (100, [(ascii "date", [ascii "NOW"])], some 0, [])) := by decide +kernel

/-- Rejected responses: both lengths, no end of the head, another version, no response. -/
example : replyFails [ascii "HTTP/1.1 200 OK\r\nContent-Length: 1\r\nTransfer-Encoding: chunked\r\n\r\n"] = .ret true ∧ replyFails [ascii "HTTP/1.1 200 OK\r\n", ascii "a: b"] = .ret true ∧
    replyFails [ascii "HTTP/1.0 200 OK\r\n\r\n"] = .ret true ∧ replyFails [] = .ret true ∧ replyFails [ascii "HTTP/1.1 200 OK\r\n\r\n"] = .ret false := by decide +kernel
/-- A head that is too long, given in small pieces. -/
example : replyFails (ascii "HTTP/1.1 200 OK\r\n" :: List.replicate 33 (ascii "a: " ++ List.replicate 245 65 ++ crlf) ++ [crlf]) = .ret true := by decide +kernel
example : NoReply (ascii "HTTP/1.1 200 OK\r\n") := by
  intro p hp
  rcases hp with ⟨t, ht⟩
  have : ∀ i ∈ List.range 18, ¬ EndsReply ((ascii "HTTP/1.1 200 OK\r\n").take i) := by decide +kernel
  have hl : p.length ≤ 17 := by have := congrArg List.length ht; rw [List.length_append] at this; have e : (ascii "HTTP/1.1 200 OK\r\n").length = 17 := by decide
                                omega
  have := this p.length (List.mem_range.2 (by omega))
  rw [← ht, List.take_left'] at this
  · exact this
  · rfl

end Tophat
