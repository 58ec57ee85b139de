import Verif.Proofs.ThruBody
/-! The client over readers that behave alike until the end of the stream. -/

set_option linter.unusedSectionVars false

namespace Tophat
open Spec

section
variable {ρ ρ' : Type}

/-- The same with another reader inside. -/
def ReplyBody.on (f : ρ → ρ') : ReplyBody ρ → ReplyBody ρ'
  | .empty => .empty
  | .stream b => .stream (b.on f)
@[inherit_doc ReplyBody.on] def ClientResponse.on (f : ρ → ρ') (r : ClientResponse ρ) : ClientResponse ρ' := ⟨r.status, r.headers, r.body.on f, r.length⟩
@[inherit_doc ReplyBody.on] def ClientRes.onResp (f : ρ → ρ') : ClientRes (ClientResponse ρ) → ClientRes (ClientResponse ρ')
  | .ok r => .ok (r.on f)
  | .err e => .err e
@[inherit_doc ReplyBody.on] def ClientDecode.Res.on (f : ρ → ρ') : ClientDecode.Res ρ → ClientDecode.Res ρ'
  | .running buf => .running buf
  | .done r => .done (r.onResp f)
@[inherit_doc ReplyBody.on] def ClientDecode.HeadRes.on (f : ρ → ρ') : ClientDecode.HeadRes ρ → ClientDecode.HeadRes ρ'
  | .running buf => .running buf
  | .err e => .err e
  | .head r buf => .head (r.on f) buf

theorem setHead_on (f : ρ → ρ') (code : Nat) (headers : HeaderMap) (body : ReplyBody ρ) (len : Option Nat) :
    ClientDecode.setHead code headers (body.on f) len = (ClientDecode.setHead code headers body len).onResp f := by
  unfold ClientDecode.setHead
  cases statusFromU16 code <;> rfl

theorem clientFinish_on (f : ρ → ρ') (now : Bytes) (pool : Pool) (r : BufRd ρ) (code : Nat) (m : HeaderMap) :
    ClientDecode.finish now pool (r.on f) code m = (ClientDecode.finish now pool r code m).onResp f := by
  unfold ClientDecode.finish
  dsimp only
  split
  · rfl
  · split
    · rfl
    · cases (ClientDecode.addDate m now).get H.contentLength with
      | none => exact setHead_on f code _ .empty _
      | some v =>
        dsimp only
        cases parseUsize v with
        | none => rfl
        | some len => exact setHead_on f code _ (.stream (.fixed ⟨r, len⟩)) _

end

section
variable {ρ ρ' : Type} [AsyncRead ρ] [LawfulRead ρ] [AsyncRead ρ'] {f : ρ → ρ'}

/-- Reading a head that comes before the end of the stream. -/
theorem clientHeadGo_thru (hf : Thru f) {hd : Bytes} (fuel : Nat) : ∀ {r : BufRd ρ} {buf : Bytes} {nread : Nat} {x : ClientDecode.HeadRes ρ},
    ClientDecode.headGo fuel r buf nread = .ret x → NoReply buf → FirstReply (buf ++ rem r) hd → ClientDecode.headGo fuel (r.on f) buf nread = .ret (x.on f) := by
  induction fuel with
  | zero =>
    intro r buf nread x h _ _
    simp only [ClientDecode.headGo, Run.ret.injEq] at h ⊢
    subst h; rfl
  | succ fuel ih =>
    intro r buf nread x h hb hh
    obtain ⟨r', p, hp, ho⟩ := LawfulBufRead.fill_ok r
    simp only [ClientDecode.headGo] at h ⊢
    rw [hp] at h
    simp only [Run.ret_bind] at h
    have hne : p ≠ .data [] := by
      rintro rfl
      cases ho with
      | data a b c d e =>
        rw [(e rfl).1, List.append_nil] at hh
        exact hh.not_noReply hb
    have hp' : pollFill (r.on f) = .ret (r'.on f, p) := BufRd.fill_thru hf hp hne
    rw [hp']
    simp only [Run.ret_bind]
    cases ho with
    | pending a b c => exact ih h hb (by rw [a]; exact hh)
    | err a b => simp only [Run.ret.injEq] at h; subst h; rfl
    | data a b c d e g =>
      rename_i bs
      have hbs : bs ≠ [] := fun h => hne (by rw [h])
      dsimp only at h ⊢
      cases hl : lineOf bs with
      | some line =>
        rw [hl] at h
        dsimp only at h ⊢
        obtain ⟨q, rest, h1, h2, h3⟩ := lineOf_some hl
        have hle : line.length ≤ bs.length := by rw [h1]; simp
        obtain ⟨g1, g2, g3⟩ := g _ hle
        have hrem : rem r = line ++ rem (consume r' line.length) := by
          obtain ⟨z, hz⟩ := d
          rw [g1, ← hz, h1]; simp
        split at h
        · rename_i hlong
          rw [if_pos hlong]
          split at h
          · rename_i hend
            rw [if_pos hend]
            simp only [Run.ret.injEq] at h; subst h; rfl
          · rename_i hend
            rw [if_neg hend]
            rw [clientEndsHead_iff] at hend
            have hnb : NoReply (buf ++ line) := by rw [h2] at hend ⊢; exact NoReply.line h3 hb hend
            exact ih h hnb (by rw [List.append_assoc, ← hrem]; exact hh)
        · rename_i hlong
          rw [if_neg hlong]
          simp only [Run.ret.injEq] at h; subst h; rfl
      | none =>
        rw [hl] at h
        dsimp only at h ⊢
        rw [if_neg hbs] at h ⊢
        have hno := lineOf_none hl
        obtain ⟨g1, g2, g3⟩ := g _ (Nat.le_refl _)
        have hrem : rem r = bs ++ rem (consume r' bs.length) := by
          obtain ⟨z, hz⟩ := d
          rw [g1, ← hz]; simp
        exact ih h (hb.append hno) (by rw [List.append_assoc, ← hrem]; exact hh)

theorem clientDecode_thru (hf : Thru f) {hd : Bytes} {now : Bytes} {pool : Pool} {fuel : Nat} {io : ρ} {d : ClientDecode.Res ρ} (hh : FirstReply (rem io) hd)
    (h : ClientDecode.decode now pool fuel io = .ret d) : ClientDecode.decode now pool fuel (f io) = .ret (d.on f) := by
  unfold ClientDecode.decode at h ⊢
  obtain ⟨x, h1, h2⟩ := Run.bind_eq_ret.1 h
  have h1' := clientHeadGo_thru hf fuel h1 noReply_nil (by show FirstReply ([] ++ ([] ++ rem io)) hd; exact hh)
  have e : (BufRd.new io).on f = BufRd.new (f io) := rfl
  rw [e] at h1'
  rw [h1']
  simp only [Run.ret_bind]
  cases x with
  | running buf => simp only [Run.ret.injEq] at h2; subst h2; rfl
  | err e => simp only [Run.ret.injEq] at h2; subst h2; rfl
  | head r buf =>
    dsimp only [ClientDecode.HeadRes.on] at h2 ⊢
    cases hp : ClientDecode.parseHead buf with
    | err e => rw [hp] at h2; simp only [Run.ret.injEq] at h2; subst h2; rfl
    | ok cm =>
      obtain ⟨code, m⟩ := cm
      rw [hp] at h2
      simp only [Run.ret.injEq] at h2
      subst h2
      dsimp only
      rw [clientFinish_on]
      rfl

theorem polls_stream_of {b b' : ReqBody ρ} {ks : List Nat} {ps : List RPoll} (h : polls b ks = .ret (b', ps)) : polls (ReplyBody.stream b) ks = .ret (.stream b', ps) := by
  induction ks generalizing b ps with
  | nil =>
    simp only [polls, Run.ret.injEq, Prod.mk.injEq] at h ⊢
    obtain ⟨rfl, rfl⟩ := h
    exact ⟨rfl, rfl⟩
  | cons k ks ih =>
    have h0 := h
    simp only [polls] at h
    obtain ⟨⟨b1, q⟩, g1, g2⟩ := Run.bind_eq_ret.1 h
    have g1' : pollRead (ReplyBody.stream b) k = .ret (.stream b1, q) := by
      show (pollRead b k >>= ReplyBody.ofStream) = _
      rw [g1]; rfl
    by_cases hq : ∃ e, q = .err e
    · obtain ⟨e, rfl⟩ := hq
      simp only [Run.ret.injEq, Prod.mk.injEq] at g2
      obtain ⟨rfl, rfl⟩ := g2
      simp only [polls, g1', Run.ret_bind]
    · have hq' : ∀ e, q ≠ .err e := fun e x => hq ⟨e, x⟩
      rw [polls_cons_data g1 hq'] at h0
      obtain ⟨⟨b2, ps1⟩, g3, g4⟩ := Run.bind_eq_ret.1 h0
      simp only [Run.ret.injEq, Prod.mk.injEq] at g4
      obtain ⟨rfl, rfl⟩ := g4
      rw [polls_cons_data g1' hq', ih g3]
      rfl

end

end Tophat
