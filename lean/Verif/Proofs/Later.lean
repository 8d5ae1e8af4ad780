import Verif.Proofs.Static

/-!
# From one prompt to a later one
-/

namespace Rsh

open Spec

/-- A relation kept by evaluation relates a prompt to every later one. -/
theorem Frame.later {w : World} {R : Sh → Sh → Prop} (F : Frame w (fun _ => True) R (fun _ _ => True))
    (hjc : ∀ s jc, R s { s with jc := jc }) (hwaits : ∀ s ws, R s { s with waits := ws }) {s s' : Sh}
    (h : Later w s s') : R s s' := by
  have S := F.toSeq
  induction h with
  | here => exact S.refl _
  | line _ h ih => exact S.trans ih ((Keeps.bind S F.prompt fun _ => F.interactiveLine (fun _ => trivial) _ _).ok h)
  | interrupted _ h ih => exact S.trans ih (F.prompt.ok h)
  | sig _ h ih => exact S.trans ih ((F.deliver (fun _ _ _ _ => hjc _ _) (fun _ _ _ => hjc _ _) F.waitForJob _).ok h)
  | waits _ ih => exact S.trans ih (hwaits _ _)

theorem AtPrompt.later {w : World} {s s' : Sh} (h : AtPrompt w s) (l : Later w s s') : AtPrompt w s' := by
  induction l with
  | here => exact h
  | line _ e ih => exact .line ih e
  | interrupted _ e ih => exact .interrupted ih e
  | sig _ e ih => exact .sig ih e
  | waits _ ih => exact .waits ih

/-- Nothing is ever removed from the environment. -/
def EnvKept (s s' : Sh) : Prop := ∀ x, (s.env.get x).isSome → (s'.env.get x).isSome

namespace EnvKept

theorem same {s s' : Sh} (h : s'.env = s.env) : EnvKept s s' := fun _ hx => h ▸ hx

theorem seq : Seq EnvKept (fun _ _ => True) where
  refl _ := same rfl
  trans h1 h2 x h := h2 x (h1 x h)
  rq _ := trivial
  rqq _ _ := trivial

theorem frame (w : World) : Frame w (fun _ => True) EnvKept (fun _ _ => True) where
  toSeq := seq
  trace _ _ _ := same rfl
  masked _ _ := same rfl
  handlers _ := same rfl
  createJob _ _ _ _ := same rfl
  deleteJob _ _ := same rfl
  resumeJob _ _ _ := same rfl
  scan _ _ _ _ _ := same rfl
  waited _ _ _ _ := same rfl
  gotSigchld _ _ := same rfl
  exitStatus _ _ := same rfl
  subst rec x _ := fun s => by
    have h := evalSubshell_expands w rec x s
    rcases hr : evalSubshell w rec x s with ⟨o, s'⟩
    rw [hr] at h
    cases o with
    | ok a => obtain ⟨np, tr, rfl⟩ := h; exact same rfl
    | err a => obtain ⟨np, tr, rfl⟩ := h; exact same rfl
    | _ => trivial
  fork rec b id procs _ := fork_of seq (w := w) (rec := rec) (fun _ _ _ => same rfl)
    (fun _ _ _ => same rfl) (fun _ _ _ _ _ _ _ => same rfl) b id procs.length procs 0 (-1, -1) (-1)
  setEnv s k v x h := by
    rw [AMap.get_insert]
    split
    · rfl
    · exact h
  aliases _ _ := same rfl
  cwd _ _ _ _ := same rfl
  addVar _ _ _ _ := same rfl
  addVarPos _ _ _ _ _ := same rfl
  addFunction _ _ _ := same rfl
  removeVar _ _ := same rfl
  removeFunction _ _ := same rfl
  removeContext _ _ := same rfl
  addVarReadonly _ _ _ _ := same rfl
  setVarReadonly _ _ _ _ := same rfl
  envVar _ _ _ _ _ _ := same rfl
  envFun _ _ _ _ _ := same rfl
  nameSelf _ _ _ _ := same rfl
  func _ c h := func_of seq (fun _ _ => same rfl) h.2 c
  ctxFile _ file ns h := ctxFile_of seq (fun _ _ => same rfl) (fun _ _ _ => same rfl) h.2 file ns

end EnvKept

end Rsh
