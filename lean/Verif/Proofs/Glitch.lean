import Verif.Spec.Glitch
import Verif.Proofs.Total
/-!
# Proofs about endpoints that fail
-/

set_option linter.unusedSectionVars false

namespace Tophat
open Spec

theorem glitchBody_eq (g : Glitch) (v : Bool) : g.bodyText v = glitchBody v g.message g.trace := by
  obtain ⟨_, _, _, m, t⟩ := g
  cases v <;> cases m <;> cases t <;> simp [Glitch.bodyText, glitchBody]
  rename_i m t
  cases m <;> simp

theorem glitch_headers {g : Glitch} (hg : ∀ hs, g.headers = some hs → hs.WF) (v : Bool) :
    GlitchHeaders (g.headers.getD []) (glitchBody v g.message g.trace) (g.intoInnerResponse v).headers := by
  have hh : (g.headers.getD []).WF := by
    cases hh : g.headers with
    | none => exact HeaderMap.wf_nil
    | some hs => exact hg hs hh
  rw [← glitchBody_eq]
  unfold GlitchHeaders Glitch.intoInnerResponse
  dsimp only
  by_cases hb : g.bodyText v = []
  · simp [hb, hh]
  · simp only [ne_eq, hb, not_false_eq_true, if_true, and_true]
    exact ⟨hh.insert _ _, fun k => HeaderMap.getAll_insert hh.nodup _ _ _⟩

section
variable {ρ : Type} [AsyncRead ρ] {σ : Type} [AsyncBufRead σ]

theorem runProg_glitch {env : Env} {fuel n : Nat} {gl : Glitch} (a : Prog σ) : ∀ (body body' : ReqBody ρ) (w w' : Writer) (ev : List Event) (g : Option Glitch),
    runProg env fuel n a body w = .ret (body', w', ev, g) → a.afterReads (bodyReads ev) = some (.glitch gl) → w' = w ∧ g = some gl ∧ written ev = [] := by
  induction a with
  | read k next ih =>
    intro body body' w w' ev g h ha
    simp only [runProg] at h
    obtain ⟨⟨b1, p⟩, h1, h2⟩ := Run.bind_eq_ret.1 h
    dsimp only at h2
    obtain ⟨⟨b2, w2, ev2, g2⟩, h3, h4⟩ := Run.bind_eq_ret.1 h2
    simp only [Run.ret.injEq, Prod.mk.injEq] at h4
    obtain ⟨rfl, rfl, rfl, rfl⟩ := h4
    simp only [bodyReads, Prog.afterReads, if_true] at ha
    exact ih p b1 b2 w w2 ev2 g2 h3 ha
  | send resp o e =>
    intro body body' w w' ev g h ha
    generalize bodyReads ev = l at ha
    cases l <;> simp [Prog.afterReads] at ha
  | sendFor k resp o e d =>
    intro body body' w w' ev g h ha
    generalize bodyReads ev = l at ha
    cases l <;> simp [Prog.afterReads] at ha
  | glitch g0 =>
    intro body body' w w' ev g h ha
    simp only [runProg, Run.ret.injEq, Prod.mk.injEq] at h
    obtain ⟨rfl, rfl, rfl, rfl⟩ := h
    simp only [bodyReads, Prog.afterReads, Option.some.injEq, Prog.glitch.injEq] at ha
    exact ⟨rfl, by rw [ha], rfl⟩

theorem intoInnerResponse_same {g g' : Glitch} (h : g.SameButError g') : g.intoInnerResponse false = g'.intoInnerResponse false := by
  obtain ⟨h1, h2, h3, h4⟩ := h
  simp only [Glitch.intoInnerResponse, Glitch.bodyText, h1, h2, h3, h4, Bool.false_eq_true, if_false]

/-- Without the text of the error. -/
def Glitch.erase (g : Glitch) : Glitch := { g with trace := none }

theorem Glitch.SameButError.erase {g g' : Glitch} (h : g.SameButError g') : g.erase = g'.erase := by
  obtain ⟨h1, h2, h3, h4⟩ := h
  simp only [Glitch.erase, h1, h2, h3, h4]

theorem Run.bind_assoc' {α β γ : Type} (x : Run α) (f : α → Run β) (k : β → Run γ) : ((x >>= f) >>= k) = (x >>= fun a => f a >>= k) := by
  cases x <;> rfl

theorem Run.bind_congr' {α β : Type} {x : Run α} {f k : α → Run β} (h : ∀ a, f a = k a) : (x >>= f) = (x >>= k) := by
  rw [funext h]

/-- A run of (the rest of) an endpoint, without the text of the error. -/
def eraseRes {α : Type} (x : Run (α × Option Glitch)) : Run (α × Option Glitch) := x >>= fun y => .ret (y.1, y.2.map Glitch.erase)

/-- Reassociate. -/
def assoc3 {α β γ : Type} (x : Run (α × β × γ)) : Run ((α × β) × γ) := x >>= fun y => .ret ((y.1, y.2.1), y.2.2)
/-- Reassociate. -/
def assoc4 {α β γ δ : Type} (x : Run (α × β × γ × δ)) : Run ((α × β × γ) × δ) := x >>= fun y => .ret ((y.1, y.2.1, y.2.2.1), y.2.2.2)

theorem runAfter_same {b : Bool} {a a' : After b} (h : a.SameButErrors a') : ∀ (body : ReqBody ρ),
    eraseRes (assoc3 (runAfter a body)) = eraseRes (assoc3 (runAfter a' body)) := by
  induction h with
  | read k n n' hn ih =>
    intro body
    simp only [runAfter, assoc3, eraseRes, Run.bind_assoc', Run.ret_bind]
    refine Run.bind_congr' fun ⟨b1, p⟩ => ?_
    have := congrArg (fun x => x >>= fun y => Run.ret ((y.1.1, Event.got k p :: y.1.2), y.2)) (ih p b1)
    simpa only [assoc3, eraseRes, Run.bind_assoc', Run.ret_bind] using this
  | ok => intro body; rfl
  | glitch h =>
    intro body
    simp only [runAfter, assoc3, eraseRes, Run.ret_bind, Option.map_some, h.erase]

theorem runProg_same {env : Env} {fuel n : Nat} {a a' : Prog σ} (h : a.SameButErrors a') : ∀ (body : ReqBody ρ) (w : Writer),
    eraseRes (assoc4 (runProg env fuel n a body w)) = eraseRes (assoc4 (runProg env fuel n a' body w)) := by
  induction h with
  | read k n n' hn ih =>
    intro body w
    simp only [runProg, assoc4, eraseRes, Run.bind_assoc', Run.ret_bind]
    refine Run.bind_congr' fun ⟨b1, p⟩ => ?_
    have := congrArg (fun x => x >>= fun y => Run.ret ((y.1.1, y.1.2.1, Event.got k p :: y.1.2.2), y.2)) (ih p b1 w)
    simpa only [assoc4, eraseRes, Run.bind_assoc', Run.ret_bind] using this
  | send resp o o' e e' ho he =>
    intro body w
    simp only [runProg, assoc4, eraseRes, Run.bind_assoc', Run.ret_bind]
    refine Run.bind_congr' fun ⟨w', r⟩ => ?_
    cases r with
    | running => rfl
    | ok amt =>
      have := congrArg (fun x => x >>= fun y => Run.ret ((y.1.1, w', wroteSince w w' :: y.1.2), y.2)) (runAfter_same (ho amt) body)
      simpa only [assoc3, eraseRes, Run.bind_assoc', Run.ret_bind] using this
    | err x =>
      have := congrArg (fun x => x >>= fun y => Run.ret ((y.1.1, w', wroteSince w w' :: y.1.2), y.2)) (runAfter_same (he x) body)
      simpa only [assoc3, eraseRes, Run.bind_assoc', Run.ret_bind] using this
  | sendFor k resp o o' e e' d d' ho he hd =>
    intro body w
    simp only [runProg, assoc4, eraseRes, Run.bind_assoc', Run.ret_bind]
    refine Run.bind_congr' fun ⟨w', r⟩ => ?_
    cases r with
    | running =>
      have := congrArg (fun x => x >>= fun y => Run.ret ((y.1.1, w', wroteSince w w' :: y.1.2), y.2)) (runAfter_same hd body)
      simpa only [assoc3, eraseRes, Run.bind_assoc', Run.ret_bind] using this
    | ok amt =>
      have := congrArg (fun x => x >>= fun y => Run.ret ((y.1.1, w', wroteSince w w' :: y.1.2), y.2)) (runAfter_same (ho amt) body)
      simpa only [assoc3, eraseRes, Run.bind_assoc', Run.ret_bind] using this
    | err x =>
      have := congrArg (fun x => x >>= fun y => Run.ret ((y.1.1, w', wroteSince w w' :: y.1.2), y.2)) (runAfter_same (he x) body)
      simpa only [assoc3, eraseRes, Run.bind_assoc', Run.ret_bind] using this
  | glitch h =>
    intro body w
    simp only [runProg, assoc4, eraseRes, Run.ret_bind, Option.map_some, h.erase]

theorem answerGlitch_erase {env : Env} {opts : ServerOpts} (ho : opts.verboseGlitch = false) {fuel n : Nat} {g : Option Glitch} {w : Writer} :
    answerGlitch env opts fuel n (g.map Glitch.erase) w = answerGlitch env opts fuel n g w := by
  cases g with
  | none => rfl
  | some g =>
    simp only [answerGlitch, Option.map_some, ho]
    rw [intoInnerResponse_same (g := g.erase) (g' := g) ⟨rfl, rfl, rfl, rfl⟩]

theorem acceptStep_same {env : Env} {opts : ServerOpts} (ho : opts.verboseGlitch = false) {e1 e2 : Endpoint σ}
    (he : ∀ head len, (e1 head len).SameButErrors (e2 head len)) (fuel n : Nat) (c : Conn ρ) :
    acceptStep env opts e1 fuel n c = acceptStep env opts e2 fuel n c := by
  unfold acceptStep
  refine Run.bind_congr' fun ⟨w, clock, a⟩ => ?_
  cases a with
  | timedOut => rfl
  | ready r =>
    cases r with
    | none io => rfl
    | fail f io => rfl
    | request req =>
      dsimp only
      have := congrArg (fun x => x >>= fun y => answerGlitch env opts fuel n y.2 y.1.2.1 >>= fun z =>
        Run.ret ((⟨y.1.1.io, z.1, clock⟩ : Conn ρ), interimEvent c.wr w ++ .call req.head req.length :: (y.1.2.2 ++ z.2), (none : Option AcceptRes)))
        (runProg_same (env := env) (fuel := fuel) (n := n) (he req.head req.length) req.body w)
      simpa only [assoc4, eraseRes, Run.bind_assoc', Run.ret_bind, answerGlitch_erase ho] using this

theorem acceptGo_same {env : Env} {opts : ServerOpts} (ho : opts.verboseGlitch = false) {e1 e2 : Endpoint σ}
    (he : ∀ head len, (e1 head len).SameButErrors (e2 head len)) (fuel : Nat) : ∀ (it n : Nat) (c : Conn ρ),
    acceptGo env opts e1 fuel it n c = acceptGo env opts e2 fuel it n c := by
  intro it
  induction it with
  | zero => intro n c; rfl
  | succ it ih =>
    intro n c
    simp only [acceptGo, acceptStep_same ho he, ih]

end

end Tophat
