import Verif.Spec.Duplex
import Verif.Spec.Response
import Verif.Proofs.Duplex
import Verif.Proofs.CopyEncoder
import Verif.Proofs.ClientEncode
/-! The invariant of an exchange, and its measure. -/

set_option linter.unusedSectionVars false

namespace Tophat
open Spec

/-! ## Reading the body -/

theorem read_pipe (ins b : Bytes) {k : Nat} (hk : 0 < k) :
    (b = [] ∧ ins = [] ∧ pollRead (⟨⟨ins⟩, b⟩ : BufRd Pipe) k = .ret (⟨⟨ins⟩, b⟩, .pending)) ∨
    ∃ bs b' ins', bs ≠ [] ∧ bs.length ≤ k ∧ b ++ ins = bs ++ (b' ++ ins') ∧ ins'.length ≤ ins.length ∧
      pollRead (⟨⟨ins⟩, b⟩ : BufRd Pipe) k = .ret (⟨⟨ins'⟩, b'⟩, .data bs) := by
  have hne : ∀ (l : Bytes) n, l ≠ [] → 0 < n → l.take n ≠ [] := by
    intro l n hl hn h0
    have h1 := congrArg List.length h0
    have := List.length_pos_iff.2 hl
    simp only [List.length_take, List.length_nil] at h1
    omega
  show _ ∨ ∃ bs b' ins', _ ∧ _ ∧ _ ∧ _ ∧ BufRd.read _ k = _
  by_cases hb : b = []
  · subst hb
    by_cases hi : ins = []
    · subst hi
      left
      refine ⟨rfl, rfl, ?_⟩
      show BufRd.read _ k = _
      unfold BufRd.read
      split
      · simp [pollRead]
      · simp [BufRd.fill, pollRead, BufRd.filled, BufRd.copyOut]
    · right
      by_cases h8 : k ≥ bufRdCap
      · refine ⟨ins.take k, [], ins.drop k, hne _ _ hi hk, by simp only [List.length_take]; omega, by simp, by simp, ?_⟩
        simp [BufRd.read, h8, pollRead, hi]
      · have h8' : k ≤ 8192 := by simp only [bufRdCap] at h8; omega
        refine ⟨(ins.take 8192).take k, (ins.take 8192).drop k, ins.drop 8192, hne _ _ (hne _ _ hi (by omega)) hk, by simp only [List.length_take]; omega, ?_, by simp, ?_⟩
        · rw [← List.append_assoc, List.take_append_drop, List.take_append_drop, List.nil_append]
        · simp only [bufRdCap] at h8
          simp [BufRd.read, BufRd.fill, pollRead, hi, BufRd.filled, BufRd.copyOut, BufRd.drop, bufRdCap]
          omega
  · right
    refine ⟨b.take k, b.drop k, ins, hne _ _ hb hk, by simp only [List.length_take]; omega, ?_, by simp, ?_⟩
    · rw [← List.append_assoc, List.take_append_drop]
    · simp [BufRd.read, hb, BufRd.fill, BufRd.copyOut, BufRd.drop]

theorem push_nil (p : Pipe) : Pipe.push [] p = p := by cases p; simp [Pipe.push]

theorem feed_nil {β : Type} (t : SrvTask β) : t.feed [] = t := by
  cases t with
  | decoding f => cases f <;> simp [SrvTask.feed, DecFut.mapIo, push_nil]
  | running p body => cases body <;> simp [SrvTask.feed, ReqBody.mapIo, push_nil]
  | sending s body => cases body <;> simp [SrvTask.feed, ReqBody.mapIo, push_nil]
  | refusing s io => simp [SrvTask.feed, push_nil]
  | done io => simp [SrvTask.feed, push_nil]

theorem EncSpec.mono {ε : Type} {poll : ε → Bytes → Run (ε × Bytes × EPoll)} {I : ε → Bytes → Prop} {work : ε → Bytes → Nat} {F : Bytes → Prop} {E E' : Bytes → IoErr → Prop} {U U' : Prop}
    (h : EncSpec poll I work F E U) (hE : ∀ out x, E out x → E' out x) (hU : U → U') : EncSpec poll I work F E' U' where
  step e out buf h1 h2 := by
    rcases h.step e out buf h1 h2 with ⟨a, b⟩ | ⟨e', buf', r, a, b, c⟩
    · exact .inl ⟨a, hU b⟩
    · refine .inr ⟨e', buf', r, a, b, ?_⟩
      cases r with
      | pending => exact c
      | err x => exact hE out x c
      | ready n => exact c

section
variable {α : Type} [AsyncBufRead α] [LawfulBufRead α] {β : Type} [AsyncBufRead β] [LawfulBufRead β]

/-- The encoder of the response delivers it, with `r` a bound for the work. -/
def Sends (hexLen : Nat → Nat) (now : Bytes) (resp : InnerResponse β) (r : Nat) : Prop :=
  ∃ I work F, EncSpec (Encoder.poll (ρ := β) hexLen now) I work F (fun _ _ => False) False ∧ I (Encoder.encode resp) [] ∧ 8193 * work (Encoder.encode resp) [] ≤ r ∧
    ∀ out, F out → IsResponse (Encoder.specHead resp now) resp.length (rem resp.body) out

theorem sends_of {hexLen : Nat → Nat} (hx : HexLenOk hexLen) {now : Bytes} {resp : InnerResponse β} (h : Sendable now resp) (hf : fin resp.body = none) : ∃ r, Sends hexLen now resp r := by
  obtain ⟨hw, hl⟩ := h
  cases hk : resp.length with
  | some n =>
    rw [hk] at hl
    refine ⟨_, _, _, _, (Encoder.encSpec_fixed hk hw hl.1).mono (fun _ x hx => ?_) (fun hu => ?_), Encoder.fxInv_start _ _ _, Nat.le_refl _, fun out ho => ?_⟩
    · rw [hf] at hx; cases hx.1
    · have := hl.2; omega
    · rw [hk]; exact ho.1
  | none =>
    rw [hk] at hl
    refine ⟨_, _, _, _, (Encoder.encSpec_chunked hx hk hw).mono (fun _ x hx => ?_) (fun hu => ?_), ⟨Encoder.chInv_start _ _, by simp [Encoder.encode], fun _ => rfl⟩, Nat.le_refl _, fun out ho => ?_⟩
    · rw [hf] at hx; cases hx.1
    · rcases hl with hl | hl
      · exact hl hu.2.1
      · apply hl
        have h1 : Encoder.specHead resp now = responseHead resp.version resp.status resp.headers none now := by
          unfold Encoder.specHead responseHead; rw [hk]
        have hc : copyBufLen = 8192 := rfl
        rw [← h1]
        rcases hu.1 with h | h <;> rw [hc] at h <;> rw [h] <;> simp
    · rw [hk]
      obtain ⟨w, h1, h2, -⟩ := ho
      exact ⟨w, h1, h2⟩

/-- An endpoint that collects, with a bound for the work. -/
inductive Weighs (hexLen : Nat → Nat) (now : Bytes) (P : InnerResponse β → Prop) : Nat → Bytes → Prog β → Prop
  | read {m k left next} : 0 < k → (∀ bs rest, left = bs ++ rest → bs.length ≤ k → (bs = [] → rest = []) → Weighs hexLen now P m rest (next (.data bs))) →
      Weighs hexLen now P (m + 1) left (.read k next)
  | send {m r resp onOk onErr} : P resp → Sends hexLen now resp r → 2 * r + 2 ≤ m → Weighs hexLen now P m [] (.send resp onOk onErr)

theorem Weighs.mono {hexLen : Nat → Nat} {now : Bytes} {P : InnerResponse β → Prop} {m : Nat} {left : Bytes} {a : Prog β} (h : Weighs hexLen now P m left a) : ∀ m', m ≤ m' → Weighs hexLen now P m' left a := by
  induction h with
  | read h1 _ ih =>
    intro m' hm
    obtain ⟨m', rfl⟩ : ∃ q, m' = q + 1 := ⟨m' - 1, by omega⟩
    exact .read h1 fun bs rest a b c => ih bs rest a b c m' (by omega)
  | send h1 h2 h3 => intro m' hm; exact .send h1 h2 (by omega)

theorem bounded {Q : Nat → Nat → Prop} (hQ : ∀ j m m', m ≤ m' → Q j m → Q j m') (n : Nat) (h : ∀ j, j ≤ n → ∃ m, Q j m) : ∃ m, ∀ j, j ≤ n → Q j m := by
  induction n with
  | zero => obtain ⟨m, hm⟩ := h 0 (Nat.le_refl _); exact ⟨m, fun j hj => by rw [Nat.le_zero.1 hj]; exact hm⟩
  | succ n ih =>
    obtain ⟨m1, h1⟩ := ih fun j hj => h j (by omega)
    obtain ⟨m2, h2⟩ := h (n + 1) (Nat.le_refl _)
    refine ⟨max m1 m2, fun j hj => ?_⟩
    rcases Nat.lt_or_eq_of_le hj with hj | rfl
    · exact hQ _ _ _ (by omega) (h1 j (by omega))
    · exact hQ _ _ _ (by omega) h2

theorem weighs_of {hexLen : Nat → Nat} {now : Bytes} {P : InnerResponse β → Prop} (hP : ∀ resp, P resp → ∃ r, Sends hexLen now resp r) (a : Prog β) :
    ∀ left, a.Collects P left → ∃ m, Weighs hexLen now P m left a := by
  induction a with
  | read k next ih =>
    intro left ⟨hk, h⟩
    obtain ⟨m, hm⟩ := bounded (Q := fun j m => (left.take j).length ≤ k → (left.take j = [] → left.drop j = []) → Weighs hexLen now P m (left.drop j) (next (.data (left.take j))))
      (fun j m m' hle h1 h2 h3 => (h1 h2 h3).mono _ hle) left.length (fun j _ => by
        by_cases hc : (left.take j).length ≤ k ∧ (left.take j = [] → left.drop j = [])
        · obtain ⟨m, hm⟩ := ih (.data (left.take j)) _ (h _ _ (List.take_append_drop j left).symm hc.1 hc.2)
          exact ⟨m, fun _ _ => hm⟩
        · exact ⟨0, fun a b => absurd ⟨a, b⟩ hc⟩)
    refine ⟨m + 1, .read hk fun bs rest h1 h2 h3 => ?_⟩
    have e1 : left.take bs.length = bs := by rw [h1, List.take_left]
    have e2 : left.drop bs.length = rest := by rw [h1, List.drop_left]
    have := hm bs.length (by rw [h1]; simp) (by rw [e1]; exact h2) (by rw [e1, e2]; exact h3)
    rwa [e1, e2] at this
  | send resp onOk onErr =>
    intro left ⟨hl, hp⟩
    subst hl
    obtain ⟨r, hr⟩ := hP resp hp
    exact ⟨_, .send hp hr (Nat.le_refl _)⟩
  | sendFor => intro left h; exact h.elim
  | glitch g => intro left h; exact h.elim

/-! ## The invariant -/

/-- What is fixed during an exchange: the request has the head `H` and the body `B` (which comes from `src`), the server accepts it and calls the endpoint with `hd`. -/
structure Exch (env : Env) (n : Nat) (H B : Bytes) (src : α) (hd : ReqHead) : Prop where
  body : rem src = B ∧ fin src = none
  first : ∀ x, FirstHead (H ++ x) H
  parsed : ∃ p, parseHead H = .ok p ∧ interimBytes p = [] ∧
    ∀ r : BufRd Pipe, finishDecode env.uriOk (env.pool n) r p = .request ⟨hd, .fixed ⟨r, B.length⟩, some B.length⟩

/-- The client has sent `sent` and read `heard`; `m` bounds what is left to do. -/
inductive CliAt (H B : Bytes) (src : α) : Nat → Bytes → Bytes → CliTask α → Prop
  | sending {c out sent m} : CopyAt (ClientEncoder.Inv H src) c out sent →
      2 * copyRank (fun e out => H.length + (rem src).length - out.length + meas e.body) c out + 1 ≤ m → CliAt H B src m sent [] (.sending c)
  | listening {heard m} : CliAt H B src m (H ++ B) heard (.listening heard)

/-- The server has got `sent`, some of which is still in the pipe, and has written `got`; `m` bounds what is left to do. -/
inductive SrvAt (env : Env) (n : Nat) (H B : Bytes) (P : InnerResponse β → Prop) (a0 : Prog β) : Nat → Bytes → Bytes → SrvTask β → Prop
  | decoding {buf nread ins sent m w} : NoHead buf → buf ++ ins = sent → Weighs env.hexLen (env.now n) P w B a0 → ins.length + w + 1 ≤ m →
      SrvAt env n H B P a0 m sent [] (.decoding (.head ⟨⟨ins⟩, []⟩ buf nread))
  | running {a b ins used left sent m w} : H ++ (used ++ (b ++ ins)) = sent → B = used ++ left → Weighs env.hexLen (env.now n) P w left a → ins.length + w ≤ m →
      SrvAt env n H B P a0 m sent [] (.running a (.fixed ⟨⟨⟨ins⟩, b⟩, left.length⟩))
  | sending {c body got m resp I work F out} : body.io.inside = [] → P resp → EncSpec (Encoder.poll (ρ := β) env.hexLen (env.now n)) I work F (fun _ _ => False) False →
      CopyAt I c out got → (∀ out, F out → IsResponse (Encoder.specHead resp (env.now n)) resp.length (rem resp.body) out) → 2 * copyRank work c out + 1 ≤ m →
      SrvAt env n H B P a0 m (H ++ B) got (.sending c body)
  | done {io got m resp} : io.inside = [] → P resp → IsResponse (Encoder.specHead resp (env.now n)) resp.length (rem resp.body) got → SrvAt env n H B P a0 m (H ++ B) got (.done io)

/-- Both, and the pipe to the client. -/
def DuplexAt (env : Env) (n : Nat) (H B : Bytes) (src : α) (P : InnerResponse β → Prop) (a0 : Prog β) (m : Nat) (s : Duplex α β) : Prop :=
  ∃ m1 m2 sent got heard, CliAt H B src m1 sent heard s.cli ∧ SrvAt env n H B P a0 m2 sent got s.srv ∧ got = heard ++ s.down ∧ m1 + m2 + s.down.length ≤ m

theorem CliAt.sent {H B : Bytes} {src : α} (hb : rem src = B) {m : Nat} {sent heard : Bytes} {t : CliTask α} (h : CliAt H B src m sent heard t) : sent <+: H ++ B := by
  cases h with
  | sending h1 _ =>
    have := h1.inv.out
    rw [hb] at this
    exact List.IsPrefix.trans ⟨_, h1.rest.symm⟩ this
  | listening => exact List.prefix_refl _

theorem SrvAt.feed {env : Env} {n : Nat} {H B : Bytes} {P : InnerResponse β → Prop} {a0 : Prog β} {m : Nat} {sent got : Bytes} {t : SrvTask β} (h : SrvAt env n H B P a0 m sent got t) (bs : Bytes)
    (hp : sent ++ bs <+: H ++ B) : SrvAt env n H B P a0 (m + bs.length) (sent ++ bs) got (t.feed bs) := by
  have nil : sent = H ++ B → bs = [] := by
    rintro rfl
    have := hp.length_le
    rw [List.length_append] at this
    exact List.length_eq_zero_iff.1 (by omega)
  cases h with
  | decoding h1 h2 h3 h4 => exact .decoding h1 (by rw [← h2]; simp [Pipe.push]) h3 (by simp only [List.length_append]; omega)
  | running h1 h2 h3 h4 =>
    rename_i a b ins used left w
    exact SrvAt.running (ins := ins ++ bs) (by rw [← h1]; simp) h2 h3 (by simp only [List.length_append]; omega)
  | sending h1 h2 h3 h4 h5 h6 => rw [nil rfl, feed_nil, List.append_nil]; exact .sending h1 h2 h3 h4 h5 (by omega)
  | done h1 h2 h3 => rw [nil rfl, feed_nil, List.append_nil]; exact .done h1 h2 h3

variable {env : Env} {opts : ServerOpts} {n : Nat} {H B : Bytes} {src : α} {hd : ReqHead} {P : InnerResponse β → Prop} {endpoint : Endpoint β} {caps : Caps}

/-- A step of the client leaves things as they are, or makes progress; it makes progress if it has something to fetch from its encoder, if there is room, or if it listens and there is something to hear. -/
theorem clientStep_spec (he : Exch env n H B src hd) {a0 : Prog β} {m : Nat} {s : Duplex α β} (h : DuplexAt env n H B src P a0 m s) :
    ∃ s', s.clientStep caps = .ret s' ∧ ((∃ m', m' < m ∧ DuplexAt env n H B src P a0 m' s') ∨
      s' = s ∧ ((∃ c, s.cli = .sending c ∧ c.pos < c.cap ∧ caps.up ≤ s.srv.io.inside.length) ∨ ∃ heard, s.cli = .listening heard ∧ s.down = [])) := by
  obtain ⟨cli, srv, down⟩ := s
  obtain ⟨m1, m2, sent, got, heard, hc, hs, hg, hm⟩ := h
  dsimp only at hc hs hg hm
  have hsent := hc.sent he.body.1
  cases hc with
  | sending h1 h2 =>
    rename_i c out
    obtain ⟨c', r, bs, k1, k2, k3⟩ := copyStep_spec ((ClientEncoder.encSpec H src).mono (E' := fun _ _ => False) (fun _ x hx => by rw [he.body.2] at hx; cases hx) id) h1 (caps.up - srv.io.inside.length)
    unfold Duplex.clientStep
    dsimp only
    rw [k1]
    simp only [Run.ret_bind]
    cases r with
    | running =>
      refine ⟨_, rfl, ?_⟩
      rcases k3 with ⟨h3, h4, h5, h6⟩ | ⟨out', h3, h4⟩
      · subst h5 h6
        right
        exact ⟨by rw [feed_nil], .inl ⟨_, rfl, h4, by omega⟩⟩
      · left
        have hp : sent ++ bs <+: H ++ B := by
          have := h3.inv.out
          rw [he.body.1] at this
          exact List.IsPrefix.trans ⟨_, h3.rest.symm⟩ this
        refine ⟨m - 1, by omega, _, _, _, _, _, .sending h3 (Nat.le_refl _), hs.feed bs hp, hg, ?_⟩
        dsimp only
        omega
    | ok amt =>
      refine ⟨_, rfl, .inl ?_⟩
      obtain ⟨⟨h3, -⟩, rfl⟩ := k3
      rw [he.body.1] at h3
      subst h3
      refine ⟨m - 1, by omega, 0, m2, _, got, [], .listening, by rw [feed_nil]; exact hs, hg, ?_⟩
      dsimp only
      omega
    | err x => exact k3.elim
  | listening =>
    refine ⟨_, rfl, ?_⟩
    by_cases hd0 : down = []
    · subst hd0
      right
      exact ⟨by simp, .inr ⟨heard, rfl, rfl⟩⟩
    · left
      have := List.length_pos_iff.2 hd0
      refine ⟨m - 1, by omega, m1, m2, _, got, _, .listening, hs, by simp [hg], ?_⟩
      simp only [List.length_nil]
      omega

/-- The same for the server. -/
theorem serverStep_spec (he : Exch env n H B src hd) {m : Nat} {s : Duplex α β} (h : DuplexAt env n H B src P (endpoint hd (some B.length)) m s) :
    ∃ s', s.serverStep env opts n endpoint caps = .ret s' ∧ ((∃ m', m' < m ∧ DuplexAt env n H B src P (endpoint hd (some B.length)) m' s') ∨
      s' = s ∧ ((∃ buf, s.srv.io.inside = [] ∧ NoHead buf ∧ ∃ nread, s.srv = .decoding (.head ⟨⟨[]⟩, []⟩ buf nread)) ∨
        (s.srv.io.inside = [] ∧ ∃ a, ∃ left : Bytes, left ≠ [] ∧ s.srv = .running a (.fixed ⟨⟨⟨[]⟩, []⟩, left.length⟩)) ∨
        (∃ c body, s.srv = .sending c body ∧ c.pos < c.cap ∧ caps.down ≤ s.down.length) ∨ ∃ io, s.srv = .done io)) := by
  obtain ⟨cli, srv, down⟩ := s
  obtain ⟨m1, m2, sent, got, heard, hc, hs, hg, hm⟩ := h
  dsimp only at hc hs hg hm
  have hsent := hc.sent he.body.1
  cases hs with
  | decoding h1 h2 h3 h4 =>
    rename_i buf nread ins w
    unfold Duplex.serverStep
    dsimp only [DecFut.io]
    simp only [DecFut.poll]
    rcases headGo_pipe (ins.length + 2) ⟨ins⟩ [] buf nread h1 (by simp only [List.length_nil]; omega) (by simp) with ⟨nr, k1, k2, k3⟩ | ⟨p', b', hh, k1, k2, k3, -⟩
    · rw [k1]
      simp only [Run.ret_bind, List.nil_append, List.append_nil] at k2 k3 ⊢
      refine ⟨_, rfl, ?_⟩
      by_cases hi : ins = []
      · subst hi
        right
        rw [k3 rfl, List.append_nil]
        exact ⟨rfl, .inl ⟨buf, rfl, h1, nread, rfl⟩⟩
      · left
        have := List.length_pos_iff.2 hi
        refine ⟨m - 1, by omega, m1, w + 1, sent, _, heard, hc, .decoding k2 (by simpa using h2) h3 (by simp only [List.length_nil]; omega), hg, ?_⟩
        dsimp only
        omega
    · rw [k1]
      simp only [Run.ret_bind, List.nil_append] at k2 k3 ⊢
      have hH : hh = H := by
        rw [h2] at k2
        have hW : FirstHead (H ++ B) hh := ⟨k2.1.trans hsent, k2.2⟩
        exact hW.unique (he.first B)
      subst hH
      obtain ⟨p, q1, q2, q3⟩ := he.parsed
      rw [q1]
      have hint : ∀ wr : Writer, pollInterim env.uriOk (env.pool n) (⟨p', b'⟩ : BufRd Pipe) p [] wr =
          .ret (wr, .ready (.request ⟨hd, .fixed ⟨⟨p', b'⟩, B.length⟩, some B.length⟩)) := by
        intro wr
        unfold pollInterim writeAll
        simp only [writeAllGo, if_true, Run.ret_bind, q3]
      simp only [q2, hint, Run.ret_bind, List.append_nil]
      refine ⟨_, rfl, .inl ⟨m - 1, by omega, m1, ins.length + w, sent, _, heard, hc, ?_, hg, ?_⟩⟩
      · obtain ⟨i'⟩ := p'
        refine SrvAt.running (used := []) (left := B) ?_ rfl h3 ?_
        · rw [← h2]; simpa using k3.symm
        · have hlt : buf.length < hh.length := by
            apply Nat.lt_of_not_le
            intro hle
            exact h1 hh (List.prefix_of_prefix_length_le k2.1 (List.prefix_append _ _) hle) k2.2.1
          have := congrArg List.length k3
          simp only [List.length_append] at this
          omega
      · dsimp only
        omega
  | running h1 h2 h3 h4 =>
    rename_i a b ins used left w
    cases h3 with
    | read hk hnext =>
      rename_i w k next
      unfold Duplex.serverStep
      dsimp only
      by_cases hl : left = []
      · subst hl
        have hpoll : pollRead (ReqBody.fixed (⟨⟨⟨ins⟩, b⟩, ([] : Bytes).length⟩ : Take (BufRd Pipe))) k = .ret (.fixed ⟨⟨⟨ins⟩, b⟩, ([] : Bytes).length⟩, .data []) := rfl
        rw [hpoll]
        simp only [Run.ret_bind]
        refine ⟨_, rfl, .inl ⟨m - 1, by omega, m1, ins.length + w, sent, _, heard, hc, SrvAt.running (left := []) h1 h2 (hnext [] [] rfl (by simp) (fun _ => rfl)) (Nat.le_refl _), hg, ?_⟩⟩
        dsimp only
        omega
      · have hll := List.length_pos_iff.2 hl
        have hlim : ¬ (left.length = 0) := by omega
        have hpre : b ++ ins <+: left := by
          rw [← h1, h2, List.prefix_append_right_inj, List.prefix_append_right_inj] at hsent
          exact hsent
        rcases read_pipe ins b (k := min k left.length) (by omega) with ⟨rfl, rfl, e3⟩ | ⟨bs, b', ins', g1, g2, g3, g4, g5⟩
        · have hpoll : pollRead (ReqBody.fixed (⟨⟨⟨[]⟩, []⟩, left.length⟩ : Take (BufRd Pipe))) k = .ret (.fixed ⟨⟨⟨[]⟩, []⟩, left.length⟩, .pending) := by
            show (Take.read _ k >>= _) = _
            unfold Take.read
            dsimp only
            rw [if_neg hlim, e3]
            rfl
          rw [hpoll]
          simp only [Run.ret_bind]
          exact ⟨_, rfl, .inr ⟨rfl, .inr (.inl ⟨rfl, _, left, hl, rfl⟩)⟩⟩
        · have hpoll : pollRead (ReqBody.fixed (⟨⟨⟨ins⟩, b⟩, left.length⟩ : Take (BufRd Pipe))) k = .ret (.fixed ⟨⟨⟨ins'⟩, b'⟩, left.length - bs.length⟩, .data bs) := by
            show (Take.read _ k >>= _) = _
            unfold Take.read
            dsimp only
            rw [if_neg hlim, g5]
            rfl
          rw [hpoll]
          simp only [Run.ret_bind]
          obtain ⟨rest, hrest⟩ : bs <+: left := List.IsPrefix.trans ⟨_, g3.symm⟩ hpre
          have hlen : left.length - bs.length = rest.length := by rw [← hrest, List.length_append]; omega
          rw [hlen]
          refine ⟨_, rfl, .inl ⟨m - 1, by omega, m1, ins.length + w, sent, _, heard, hc,
            SrvAt.running (used := used ++ bs) (left := rest) (by rw [← h1, g3]; simp) (by rw [h2, ← hrest]; simp) (hnext bs rest hrest.symm (by omega) (fun h => absurd h g1)) (by omega), hg, ?_⟩⟩
          dsimp only
          omega
    | send hp hs hw =>
      rename_i r resp onOk onErr
      obtain ⟨I, work, F, e1, e2, e3, e4⟩ := hs
      rw [List.append_nil] at h2
      subst h2
      have hnil : b ++ ins = [] := by
        rw [← h1, List.prefix_append_right_inj] at hsent
        have := hsent.length_le
        rw [List.length_append] at this
        exact List.length_eq_zero_iff.1 (by omega)
      obtain ⟨rfl, rfl⟩ := List.append_eq_nil_iff.1 hnil
      have hW : H ++ B = sent := by rw [← h1]; simp
      subst hW
      refine ⟨_, rfl, .inl ⟨m - 1, by omega, m1, 2 * r + 1, _, _, heard, hc, .sending rfl hp e1 (.init e2) e4 ?_, hg, ?_⟩⟩
      · simp only [copyRank, CopyState.init]
        omega
      · dsimp only
        simp only [List.length_nil] at h4
        omega
  | sending h1 h2 h3 h4 h5 h6 =>
    rename_i c body resp I work F out
    obtain ⟨c', r, bs, k1, k2, k3⟩ := copyStep_spec h3 h4 (caps.down - down.length)
    unfold Duplex.serverStep
    dsimp only
    rw [k1]
    simp only [Run.ret_bind]
    cases r with
    | running =>
      refine ⟨_, rfl, ?_⟩
      rcases k3 with ⟨g3, g4, g5, g6⟩ | ⟨out', g3, g4⟩
      · subst g5 g6
        right
        exact ⟨by simp, .inr (.inr (.inl ⟨_, _, rfl, g4, by omega⟩))⟩
      · left
        refine ⟨m - 1, by omega, m1, _, _, _, heard, hc, .sending h1 h2 h3 g3 h5 (Nat.le_refl _), by rw [hg, List.append_assoc], ?_⟩
        simp only [List.length_append]
        omega
    | ok amt =>
      obtain ⟨g3, rfl⟩ := k3
      refine ⟨_, rfl, .inl ⟨m - 1, by omega, m1, 0, _, _, heard, hc, .done h1 h2 (h5 _ g3), by simpa using hg, ?_⟩⟩
      simp only [List.append_nil]
      omega
    | err x => exact k3.elim
  | done h1 h2 h3 => exact ⟨_, rfl, .inr ⟨rfl, .inr (.inr (.inr ⟨_, rfl⟩))⟩⟩

/-- As long as the exchange is not over, one of the two makes progress. -/
theorem duplex_progress (he : Exch env n H B src hd) (hup : 0 < caps.up) (hdown : 0 < caps.down) {m : Nat} {s : Duplex α β}
    (h : DuplexAt env n H B src P (endpoint hd (some B.length)) m s) :
    (∃ resp msg, P resp ∧ IsResponse (Encoder.specHead resp (env.now n)) resp.length (rem resp.body) msg ∧ s.Over msg) ∨
    ∃ who s' m', s.step env opts n endpoint caps who = .ret s' ∧ m' < m ∧ DuplexAt env n H B src P (endpoint hd (some B.length)) m' s' := by
  obtain ⟨s1, c1, hc⟩ := clientStep_spec (caps := caps) he h
  obtain ⟨s2, c2, hs⟩ := serverStep_spec (caps := caps) (opts := opts) (endpoint := endpoint) he h
  rcases hc with ⟨m', g1, g2⟩ | ⟨-, hc⟩
  · exact .inr ⟨.client, s1, m', c1, g1, g2⟩
  rcases hs with ⟨m', g1, g2⟩ | ⟨-, hs⟩
  · exact .inr ⟨.server, s2, m', c2, g1, g2⟩
  left
  obtain ⟨cli, srv, down⟩ := s
  obtain ⟨m1, m2, sent, got, heard, ic, is, hg, hm⟩ := h
  dsimp only at *
  -- the client waits for room, or for something to hear
  rcases hc with ⟨c, rfl, hlt, hroom⟩ | ⟨heard', rfl, rfl⟩
  · cases ic with
    | sending h1 h2 =>
    rename_i out
    have hne : sent ≠ H ++ B := by
      rintro rfl
      have h3 := h1.inv.out.length_le
      have h4 := h1.left
      rw [he.body.1] at h3
      omega
    rcases hs with ⟨buf, g1, -⟩ | ⟨g1, -⟩ | ⟨c', body, rfl, -⟩ | ⟨io, rfl⟩
    · rw [g1] at hroom; simp at hroom; omega
    · rw [g1] at hroom; simp at hroom; omega
    · cases is; exact absurd rfl hne
    · cases is; exact absurd rfl hne
  · generalize hW : H ++ B = W at ic
    cases ic with
    | listening =>
    rcases hs with ⟨buf, g1, g2, nread, rfl⟩ | ⟨g1, a, left, g2, rfl⟩ | ⟨c', body, rfl, -, hd⟩ | ⟨io, rfl⟩
    · cases is with
      | decoding h1 h2 =>
      rw [List.append_nil] at h2
      subst h2
      exact absurd h1 (he.first B).not_noHead
    · generalize hb : (ReqBody.fixed (⟨⟨⟨[]⟩, []⟩, left.length⟩ : Take (BufRd Pipe))) = body at is
      cases is with
      | running h1 h2 =>
      rename_i b ins used left' w
      injection hb with hb
      injection hb with hb1 hb2
      injection hb1 with hb3 hb4
      injection hb3 with hb5
      subst hb4 hb5
      rw [h2, List.append_cancel_left_eq] at h1
      have := congrArg List.length h1
      simp only [List.length_append, List.length_nil] at this
      exact absurd (List.length_eq_zero_iff.1 (by omega : left.length = 0)) g2
    · simp at hd; omega
    · cases is with
      | done h1 h2 h3 =>
      rw [List.append_nil] at hg
      subst hg
      exact ⟨_, _, h2, h3, ⟨_, rfl⟩, rfl, rfl⟩

/-- Every step keeps the invariant; it makes progress or leaves things as they are. -/
theorem duplex_step (he : Exch env n H B src hd) {m : Nat} {s : Duplex α β} (h : DuplexAt env n H B src P (endpoint hd (some B.length)) m s) (who : Who) :
    ∃ s', s.step env opts n endpoint caps who = .ret s' ∧ ((∃ m', m' < m ∧ DuplexAt env n H B src P (endpoint hd (some B.length)) m' s') ∨ s' = s) := by
  cases who with
  | client =>
    obtain ⟨s1, c1, hc⟩ := clientStep_spec (caps := caps) he h
    exact ⟨s1, c1, hc.imp id And.left⟩
  | server =>
    obtain ⟨s1, c1, hc⟩ := serverStep_spec (caps := caps) (opts := opts) (endpoint := endpoint) he h
    exact ⟨s1, c1, hc.imp id And.left⟩

/-- Under a fair schedule, the exchange gets over. -/
theorem duplex_over (he : Exch env n H B src hd) (hup : 0 < caps.up) (hdown : 0 < caps.down) {sched : Nat → Who} (hf : Fair sched) {s0 : Duplex α β} (m : Nat) :
    ∀ (k : Nat) (s : Duplex α β), s0.run env opts n endpoint caps sched k = .ret s → DuplexAt env n H B src P (endpoint hd (some B.length)) m s →
    ∃ j s' resp msg, k ≤ j ∧ s0.run env opts n endpoint caps sched j = .ret s' ∧ P resp ∧ IsResponse (Encoder.specHead resp (env.now n)) resp.length (rem resp.body) msg ∧ s'.Over msg := by
  induction m using Nat.strongRecOn with
  | ind m ih =>
    intro k s hk h
    rcases duplex_progress (opts := opts) he hup hdown h with ⟨resp, msg, h1, h2, h3⟩ | ⟨who, s1, m1, h1, h2, h3⟩
    · exact ⟨k, s, resp, msg, Nat.le_refl _, hk, h1, h2, h3⟩
    · -- until it is `who`'s turn, nothing happens, or progress is made
      obtain ⟨j, hj, hw⟩ := hf who k
      have key : ∀ d, ∀ k, s0.run env opts n endpoint caps sched k = .ret s → k + d = j →
          ∃ j s' resp msg, k ≤ j ∧ s0.run env opts n endpoint caps sched j = .ret s' ∧ P resp ∧ IsResponse (Encoder.specHead resp (env.now n)) resp.length (rem resp.body) msg ∧ s'.Over msg := by
        intro d
        induction d with
        | zero =>
          intro k hk hd
          have hnext : s0.run env opts n endpoint caps sched (k + 1) = .ret s1 := by
            simp only [Duplex.run, hk, Run.ret_bind]
            rw [show sched k = who by rw [← hw, ← hd]; rfl]
            exact h1
          obtain ⟨j, s', resp, msg, a1, a2⟩ := ih m1 h2 _ _ hnext h3
          exact ⟨j, s', resp, msg, by omega, a2⟩
        | succ d ihd =>
          intro k hk hd
          obtain ⟨s2, c1, c2⟩ := duplex_step (opts := opts) (caps := caps) he h (sched k)
          have hnext : s0.run env opts n endpoint caps sched (k + 1) = .ret s2 := by
            simp only [Duplex.run, hk, Run.ret_bind]
            exact c1
          rcases c2 with ⟨m', b1, b2⟩ | rfl
          · obtain ⟨j, s', resp, msg, a1, a2⟩ := ih m' b1 _ _ hnext b2
            exact ⟨j, s', resp, msg, by omega, a2⟩
          · obtain ⟨j, s', resp, msg, a1, a2⟩ := ihd (k + 1) hnext (by omega)
            exact ⟨j, s', resp, msg, by omega, a2⟩
      exact key (j - k) k hk (by omega)

end

end Tophat
