import Verif.Proofs.Calm
import Verif.Spec.Rank

/-!
# The room that programs without recursion need

A walk through the evaluator for programs whose functions have ranks.
-/

namespace Rsh

open Spec

variable {rank : Str → Nat} {w : World}

/-- The functions are still ranked and the room was enough. -/
abbrev Ample (rank : Str → Nat) (r : Out α × Sh) : Prop := r.1 ≠ .deep ∧ Ranked rank r.2

/-- `m` keeps the functions ranked and does not run out of room. -/
def Roomy (rank : Str → Nat) (m : M α) : Prop := ∀ s, Ranked rank s → Ample rank (m s)

theorem Spec.Ranked.same {s s' : Sh} (h : Ranked rank s) (h1 : s'.ctx.heap = s.ctx.heap) (h2 : s'.aliases = s.aliases) :
    Ranked rank s' :=
  ⟨fun id f b hb => h.functions id f b (by rw [← h1]; exact hb), by rw [h2]; exact h.aliases⟩

namespace Roomy

theorem pure (a : α) : Roomy rank (Pure.pure a : M α) := fun _ h => ⟨nofun, h⟩
theorem getS : Roomy rank Rsh.getS := fun _ h => ⟨nofun, h⟩
theorem throwE (e : Str) : Roomy rank (Rsh.throwE e : M α) := fun _ h => ⟨nofun, h⟩
theorem panicM (k : PanicKind) : Roomy rank (Rsh.panicM k : M α) := fun _ h => ⟨nofun, h⟩
theorem hangM : Roomy rank (Rsh.hangM : M α) := fun _ h => ⟨nofun, h⟩
theorem exitM (c : Int) : Roomy rank (Rsh.exitM c : M α) := fun _ h => ⟨nofun, h⟩
theorem execM (i : ExecImage) : Roomy rank (Rsh.execM i : M α) := fun _ h => ⟨nofun, h⟩

theorem unwrapM (k : PanicKind) (o : Option α) : Roomy rank (Rsh.unwrapM k o) := by
  cases o with
  | none => exact panicM k
  | some a => exact pure a

theorem bindAt {m : M α} {f : α → M β} {s : Sh} (hm : (m s).1 ≠ .deep ∧ Ranked rank (m s).2)
    (hf : ∀ a s1, m s = (.ok a, s1) → Ranked rank s1 → (f a s1).1 ≠ .deep ∧ Ranked rank (f a s1).2) :
    ((m >>= f) s).1 ≠ .deep ∧ Ranked rank ((m >>= f) s).2 := by
  rw [run_bind]
  rcases h : m s with ⟨o, s1⟩
  rw [h] at hm
  cases o with
  | ok a => exact hf a s1 h hm.2
  | deep => exact absurd rfl hm.1
  | _ => exact ⟨nofun, hm.2⟩

theorem bind {m : M α} {f : α → M β} (hm : Roomy rank m) (hf : ∀ a, Roomy rank (f a)) : Roomy rank (m >>= f) :=
  fun s h => bindAt (hm s h) fun a s1 _ => hf a s1

theorem ite {c : Prop} [Decidable c] {a b : M α} (ha : Roomy rank a) (hb : Roomy rank b) :
    Roomy rank (if c then a else b) := by split <;> assumption

theorem tryE {m : M α} (h : Roomy rank m) : Roomy rank (Rsh.tryE m) := by
  intro s h1
  rw [run_tryE]
  have h3 := h s h1
  rcases h : m s with ⟨o, s1⟩
  rw [h] at h3
  cases o with
  | deep => exact absurd rfl h3.1
  | _ => exact ⟨nofun, h3.2⟩

theorem stateOnly {m : M α} (h : ∀ s, (m s).2.ctx.heap = s.ctx.heap ∧ (m s).2.aliases = s.aliases ∧ (m s).1 ≠ .deep) :
    Roomy rank m := fun s ht => ⟨(h s).2.2, ht.same (h s).1 (h s).2.1⟩

theorem modS {f : Sh → Sh} (h : ∀ s, (f s).ctx.heap = s.ctx.heap ∧ (f s).aliases = s.aliases) : Roomy rank (Rsh.modS f) :=
  fun s ht => ⟨nofun, ht.same (h s).1 (h s).2⟩

theorem emit (e : Event) : Roomy rank (Rsh.emit e) := modS fun _ => ⟨rfl, rfl⟩
theorem printM (t : Str) : Roomy rank (Rsh.printM t) := modS fun _ => ⟨rfl, rfl⟩
theorem eprintM (t : Str) : Roomy rank (Rsh.eprintM t) := modS fun _ => ⟨rfl, rfl⟩
theorem printlnM (t : Str) : Roomy rank (Rsh.printlnM t) := printM _
theorem eprintlnM (t : Str) : Roomy rank (Rsh.eprintlnM t) := eprintM _
theorem interruptsOff : Roomy rank Rsh.interruptsOff := modS fun _ => ⟨rfl, rfl⟩
theorem interruptsOn : Roomy rank Rsh.interruptsOn := modS fun _ => ⟨rfl, rfl⟩

theorem runChild {m : M α} (h : Roomy rank m) : Roomy rank (Rsh.runChild w m) := by
  intro s ht
  unfold Rsh.runChild
  have h1 := (h (childStart w s) (ht.same rfl rfl)).1
  rcases hm : m (childStart w s) with ⟨o, s1⟩
  rw [hm] at h1
  cases o with
  | deep => exact absurd rfl h1
  | _ => exact ⟨nofun, ht⟩

/-- Close a goal `Roomy rank m` by the structure of `m`. -/
macro "roomy" : tactic => `(tactic| repeat' first
  | assumption
  | with_reducible exact Roomy.pure _
  | with_reducible exact Roomy.getS
  | with_reducible exact Roomy.throwE _
  | with_reducible exact Roomy.panicM _
  | with_reducible exact Roomy.hangM
  | with_reducible exact Roomy.exitM _
  | with_reducible exact Roomy.execM _
  | with_reducible exact Roomy.unwrapM _ _
  | with_reducible exact Roomy.printM _
  | with_reducible exact Roomy.printlnM _
  | with_reducible exact Roomy.eprintM _
  | with_reducible exact Roomy.eprintlnM _
  | with_reducible exact Roomy.emit _
  | with_reducible exact Roomy.interruptsOff
  | with_reducible exact Roomy.interruptsOn
  | with_reducible exact Roomy.modS fun _ => ⟨rfl, rfl⟩
  | with_reducible refine Roomy.bind ?_ fun _ => ?_
  | with_reducible refine Roomy.tryE ?_
  | with_reducible refine Roomy.runChild ?_
  | with_reducible refine Roomy.ite ?_ ?_
  | with_reducible apply_assumption
  | dsimp only
  | split)

/-! ## Variables and functions -/

theorem ctxStep {f : Sh → Sh} (h : ∀ s, Calm.FunsIn s.ctx (f s).ctx ∧ (f s).aliases = s.aliases) : Roomy rank (Rsh.modS f) :=
  fun s ht => ⟨nofun, fun id g b hb => ht.functions id g b ((h s).1 id g b hb), (h s).2.trans ht.aliases⟩

theorem setCtxAt {s : Sh} {m : CtxMgr} (ht : Ranked rank s) (h : Calm.FunsIn s.ctx m) :
    (Rsh.setCtxMgr m s).1 ≠ .deep ∧ Ranked rank (Rsh.setCtxMgr m s).2 :=
  ⟨nofun, fun id g b hb => ht.functions id g b (h id g b hb), ht.aliases⟩

theorem unwrapCtx {s : Sh} {k : PanicKind} {o : Option CtxMgr} (ht : Ranked rank s) (h : ∀ m, o = some m → Calm.FunsIn s.ctx m) :
    ((Rsh.unwrapM k o >>= fun m => setCtxMgr m) s).1 ≠ .deep ∧ Ranked rank ((Rsh.unwrapM k o >>= fun m => setCtxMgr m) s).2 := by
  cases o with
  | none => exact ⟨nofun, ht⟩
  | some m => exact setCtxAt ht (h m rfl)

theorem addVarContext (set : Str) : Roomy rank (Rsh.addVarContext set) := by
  intro s ht
  unfold Rsh.addVarContext
  rw [run_getS_bind]
  exact unwrapCtx ht fun m h => Calm.addVar_funs h

theorem pushContextNew : Roomy rank Rsh.pushContextNew := by
  refine ctxStep fun s => ⟨fun id f b hb => ?_, rfl⟩
  unfold CtxMgr.pushNew at hb
  simp only at hb
  split at hb
  · cases hb
  · exact hb

theorem popContext : Roomy rank Rsh.popContext := by
  intro s ht
  unfold Rsh.popContext
  rw [run_getS_bind]
  rcases hp : s.ctx.pop with _ | ⟨id, m⟩
  · exact ⟨nofun, ht⟩
  · rw [unwrapM_some]
    show ((setCtxMgr m >>= fun _ => Pure.pure id) s).1 ≠ .deep ∧ Ranked rank ((setCtxMgr m >>= fun _ => Pure.pure id) s).2
    refine bindAt (setCtxAt ht ?_) fun _ s1 _ h1 => pure _ s1 h1
    unfold CtxMgr.pop at hp
    split at hp
    · cases hp; exact fun _ _ _ h => h
    · cases hp

theorem ctxAddFunction {c : Ctx} {f g : Str} {b b' : FunctionBody} (h : ((c.addFunction f b).1).getFunction g = some b') :
    (g = f ∧ b' = b) ∨ c.getFunction g = some b' := by
  unfold Ctx.addFunction at h
  split at h
  · exact .inr h
  · unfold Ctx.getFunction at h
    by_cases e : g = f
    · subst e
      rw [AMap.get_insert_self] at h; cases h; exact .inl ⟨rfl, rfl⟩
    · rw [AMap.get_insert_ne _ _ e] at h; exact .inr h

theorem addFunction_funs {m : CtxMgr} {f : Str} {b : FunctionBody} {id : Nat} {g : Str} {b' : FunctionBody}
    (h : ((m.addFunction f b).1.heap id).getFunction g = some b') : (g = f ∧ b' = b) ∨ (m.heap id).getFunction g = some b' := by
  unfold CtxMgr.addFunction at h
  split at h
  · simp only [CtxMgr.setCtx] at h
    split at h
    · next e => subst e; exact ctxAddFunction h
    · exact .inr h
  · split at h
    · simp only [CtxMgr.setCtx] at h
      split at h
      · next e => subst e; exact ctxAddFunction h
      · exact .inr h
    · exact .inr h

theorem addFunctionM {f : Str} {b : FunctionBody} (hf : 0 < rank f) (hb : bodyLevel rank (rank f - 1) b = true) :
    Roomy rank (Rsh.addFunctionM f b) := by
  intro s ht
  unfold Rsh.addFunctionM
  rw [run_getS_bind]
  have key : ∀ id g b', ((s.ctx.addFunction f b).1.heap id).getFunction g = some b' →
      0 < rank g ∧ bodyLevel rank (rank g - 1) b' = true := by
    intro id g b' h
    rcases addFunction_funs h with ⟨rfl, rfl⟩ | h1
    · exact ⟨hf, hb⟩
    · exact ht.functions id g b' h1
  rcases e : s.ctx.addFunction f b with ⟨m, ro⟩
  rw [e] at key
  simp only
  refine bindAt (m := setCtxMgr m) ⟨nofun, key, ht.aliases⟩ fun _ s1 _ h1 => ?_
  exact ite (eprintlnM _) (pure _) s1 h1

theorem expandVar (h : Held) (x : Str) : Roomy rank (Rsh.expandVar h x) := by unfold Rsh.expandVar; roomy
theorem lookupCommandM (x : Str) : Roomy rank (Rsh.lookupCommandM w x) := by unfold Rsh.lookupCommandM; roomy
theorem wordAt (ws : List Str) (i : Nat) : Roomy rank (Rsh.wordAt ws i) := unwrapM _ _


/-! ## Descriptors and signals -/

theorem pipeM : Roomy rank (Rsh.pipeM w) := by
  refine stateOnly fun s => ?_
  unfold Rsh.pipeM
  split <;> exact ⟨rfl, rfl, nofun⟩

theorem closeM (fd : Int) : Roomy rank (Rsh.closeM fd) := by
  refine stateOnly fun s => ?_
  unfold Rsh.closeM
  split <;> exact ⟨rfl, rfl, nofun⟩

theorem closeU (fd : Int) : Roomy rank (Rsh.closeU fd) := by
  have := closeM (rank := rank) fd
  unfold Rsh.closeU; roomy

theorem removeHandlers : Roomy rank Rsh.removeHandlers := modS fun _ => ⟨rfl, rfl⟩

theorem onSigOther (g : Nat) : Roomy rank (Rsh.onSigOther w g) := by
  unfold Rsh.onSigOther; roomy

/-! ## Jobs -/

theorem modJc (f : JobControl → JobControl) : Roomy rank (Rsh.modJc f) := modS fun _ => ⟨rfl, rfl⟩

theorem deleteJobM (id : Nat) : Roomy rank (Rsh.deleteJobM id) := by
  have := modJc (rank := rank)
  unfold Rsh.deleteJobM; roomy

theorem createJobM (ps : List Process) (b : Bool) : Roomy rank (Rsh.createJobM ps b) :=
  stateOnly fun _ => ⟨rfl, rfl, nofun⟩

theorem showJobs (h : Held) (t : List (Nat × Job)) : Roomy rank (Rsh.showJobs h t) := by
  have := expandVar (rank := rank)
  induction t with
  | nil => exact pure _
  | cons p t ih => unfold Rsh.showJobs; roomy

theorem waitpidM : Roomy rank Rsh.waitpidM := by
  intro s ht
  unfold Rsh.waitpidM
  split
  · exact ⟨nofun, ht⟩
  · next r rs _ =>
    exact ⟨nofun, ht.same rfl rfl⟩

theorem waitRetry (n : Nat) : Roomy rank (Rsh.waitRetry n) := by
  have := waitpidM (rank := rank)
  induction n with
  | zero => exact hangM
  | succ n ih => unfold Rsh.waitRetry; roomy

theorem waitProcess : Roomy rank Rsh.waitProcess := by
  have := waitRetry (rank := rank)
  unfold Rsh.waitProcess; roomy

theorem formatStatus (st : WStatus) : Roomy rank (Rsh.formatStatus w st) := by
  have := expandVar (rank := rank)
  unfold Rsh.formatStatus
  refine bind getS fun s => ?_
  simp only
  roomy

theorem waitOne (id : Nat) : Roomy rank (Rsh.waitOne w id) := by
  have := waitProcess (rank := rank)
  have := formatStatus (rank := rank) (w := w)
  have := modJc (rank := rank)
  unfold Rsh.waitOne; roomy

theorem doWaitLoop (id n : Nat) (b : Bool) : Roomy rank (Rsh.doWaitLoop w id n b) := by
  have := waitOne (rank := rank) (w := w)
  induction n generalizing b with
  | zero => exact hangM
  | succ n ih => unfold Rsh.doWaitLoop; roomy

theorem doWait (id : Nat) : Roomy rank (Rsh.doWait w id) := by
  have := doWaitLoop (rank := rank) (w := w)
  unfold Rsh.doWait; roomy

theorem waitForJob (id : Nat) : Roomy rank (Rsh.waitForJob w id) := by
  have := doWait (rank := rank) (w := w)
  have := deleteJobM (rank := rank)
  unfold Rsh.waitForJob; roomy

/-! ## Expansion -/

variable {rec : List AndOr → M Int}
/-! ## Builtins -/

theorem displayJobs : Roomy rank Rsh.displayJobs := by
  have := showJobs (rank := rank)
  unfold Rsh.displayJobs; roomy

theorem bCd (c : SimpleCommand) : Roomy rank (Rsh.bCd w c) := by
  have := wordAt (rank := rank)
  unfold Rsh.bCd
  roomy

theorem saveHistory : Roomy rank (Rsh.saveHistory w) := by
  unfold Rsh.saveHistory; roomy

theorem bExit (c : SimpleCommand) : Roomy rank (Rsh.bExit w c) := by
  have := saveHistory (rank := rank) (w := w)
  unfold Rsh.bExit; roomy

theorem bReturn (c : SimpleCommand) : Roomy rank (Rsh.bReturn c) := by unfold Rsh.bReturn; roomy

theorem bJobs : Roomy rank Rsh.bJobs := by
  have := displayJobs (rank := rank)
  unfold Rsh.bJobs; roomy

theorem contAll (ps : List Process) : Roomy rank (Rsh.contAll w ps) := by
  induction ps with
  | nil => exact pure _
  | cons p ps ih => unfold Rsh.contAll; roomy

theorem bFgBg (c : SimpleCommand) : Roomy rank (Rsh.bFgBg w c) := by
  have := wordAt (rank := rank)
  have := contAll (rank := rank) (w := w)
  have := modJc (rank := rank)
  have := waitForJob (rank := rank) (w := w)
  have h1 : Roomy rank (fgbgId c) := by unfold fgbgId; roomy
  have h2 : ∀ id ty, Roomy rank (findJob id ty) := by
    intro id ty
    cases ty <;> unfold findJob <;> roomy
  have h3 : ∀ j b, Roomy rank (Rsh.resume w j b) := by intro j b; unfold Rsh.resume; roomy
  unfold Rsh.bFgBg; roomy

theorem bUnalias (c : SimpleCommand) : Roomy rank (Rsh.bUnalias c) := by
  have := wordAt (rank := rank)
  have h1 : Roomy rank (Rsh.modS fun s => { s with aliases := [] }) := fun s ht => ⟨nofun, ht.functions, rfl⟩
  have h2 : ∀ x, Roomy rank (Rsh.modS fun s => { s with aliases := s.aliases.erase x }) := fun x s ht =>
    ⟨nofun, ht.functions, by show s.aliases.erase x = []; rw [ht.aliases]; rfl⟩
  unfold Rsh.bUnalias; roomy

theorem bAssign (c : SimpleCommand) : Roomy rank (Rsh.bAssign c) := by
  have := addVarContext (rank := rank)
  unfold Rsh.bAssign; roomy

theorem bUnset (c : SimpleCommand) : Roomy rank (Rsh.bUnset c) := by
  have := wordAt (rank := rank)
  have h1 : ∀ x, Roomy rank (Rsh.modS fun s => { s with ctx := s.ctx.removeVar x }) := fun x =>
    ctxStep fun s => ⟨Calm.removeVar_funs _ _, rfl⟩
  have h2 : ∀ x, Roomy rank (Rsh.modS fun s => { s with ctx := s.ctx.removeFunction x }) := fun x =>
    ctxStep fun s => ⟨Calm.removeFunction_funs _ _, rfl⟩
  have h3 : ∀ x, Roomy rank (Rsh.modS fun s => { s with ctx := s.ctx.removeContext x }) := fun x =>
    ctxStep fun s => ⟨fun _ _ _ h => h, rfl⟩
  unfold Rsh.bUnset Rsh.unsetFlags; roomy

theorem printReadonly (xs : List Str) : Roomy rank (Rsh.printReadonly xs) := by
  induction xs with
  | nil => exact pure _
  | cons p a ih => unfold Rsh.printReadonly; roomy

theorem printNames (xs : List Str) : Roomy rank (Rsh.printNames xs) := by
  induction xs with
  | nil => exact pure _
  | cons p a ih => unfold Rsh.printNames; roomy

theorem bReadonly (c : SimpleCommand) : Roomy rank (Rsh.bReadonly c) := by
  have := wordAt (rank := rank)
  have := printReadonly (rank := rank)
  have := printNames (rank := rank)
  have h1 : ∀ x, Roomy rank (Rsh.readonlyFlags x) := by intro x; unfold Rsh.readonlyFlags; roomy
  have h2 : ∀ x p b, Roomy rank (Rsh.readonlyFlags2 x p b) := by intro x p b; unfold Rsh.readonlyFlags2; roomy
  have h3 : ∀ fl ws p, Roomy rank (Rsh.readonlyPrint fl ws p) := by
    intro fl ws p
    unfold Rsh.readonlyPrint; roomy
  unfold Rsh.bReadonly
  split
  · roomy
  · next heq =>
    rw [← heq]
    refine bind (h1 _) fun p => ?_
    obtain ⟨fl, pos, print⟩ := p
    refine bind (wordAt _ _) fun y => ?_
    refine bind (h2 _ _ _) fun p => ?_
    obtain ⟨pos, print⟩ := p
    refine ite (h3 _ _ _) fun s ht => ?_
    rw [run_getS_bind]
    have hrest : Ample rank ((match c.words[pos]? with
        | none => Rsh.throwE (cs!"readonly needs an argument")
        | some a =>
          if hasChar '=' a then do
            let m ← Rsh.unwrapM .unwrap (s.ctx.addVarReadonly a)
            setCtxMgr m
          else do
            let m ← Rsh.unwrapM .unwrap (s.ctx.setVarReadonly a)
            setCtxMgr m : M Unit) s) := by
      cases c.words[pos]? with
      | none => exact throwE _ s ht
      | some a =>
        show Ample rank ((if hasChar '=' a then (Rsh.unwrapM .unwrap (s.ctx.addVarReadonly a) >>= fun m => setCtxMgr m)
          else (Rsh.unwrapM .unwrap (s.ctx.setVarReadonly a) >>= fun m => setCtxMgr m) : M Unit) s)
        by_cases he : hasChar '=' a = true
        · rw [if_pos he]; exact unwrapCtx ht fun m h => Calm.addVarReadonly_funs h
        · rw [if_neg he]; exact unwrapCtx ht fun m h => Calm.setVarReadonly_funs h
    cases fl with
    | function => exact printNames _ s ht
    | _ => exact hrest

theorem tempExecve (a : Str) (b : List Str) (e : AMap Str) : Roomy rank (Rsh.tempExecve w a b e) := by
  have := removeHandlers (rank := rank)
  have := lookupCommandM (rank := rank) (w := w)
  unfold Rsh.tempExecve; roomy

theorem bExec (c : SimpleCommand) : Roomy rank (Rsh.bExec w c) := by
  have hw := wordAt (rank := rank)
  have := removeHandlers (rank := rank)
  have := lookupCommandM (rank := rank) (w := w)
  have := tempExecve (rank := rank) (w := w)
  have h1 : ∀ ws, Roomy rank (Rsh.execOpts1 ws) := by intro ws; unfold Rsh.execOpts1; roomy
  have h2 : ∀ ws o, Roomy rank (Rsh.execOpts2 ws o) := by intro ws o; unfold Rsh.execOpts2; roomy
  unfold Rsh.bExec
  roomy

theorem callBuiltin {c : SimpleCommand} (hc : c.name ∉ indirect) : Roomy rank (Rsh.callBuiltin w rec c) := by
  have hp : Roomy rank Rsh.bPwd := by unfold Rsh.bPwd; roomy
  unfold Rsh.callBuiltin
  refine ite (bCd c) (ite (bExit c) (ite (bReturn c) (ite bJobs (ite (bFgBg c) ?_))))
  by_cases e : c.name = cs!"alias"
  · exact absurd (by rw [e]; decide) hc
  rw [if_neg e]
  refine ite (bUnalias c) ?_
  by_cases e : c.name = cs!"export"
  · exact absurd (by rw [e]; decide) hc
  rw [if_neg e]
  by_cases e : c.name = cs!"eval"
  · exact absurd (by rw [e]; decide) hc
  rw [if_neg e]
  refine ite (bUnset c) (ite hp (ite (bReadonly c) (ite (bExec c) ?_)))
  by_cases e : c.name = cs!"." ∨ c.name = cs!"source"
  · refine absurd ?_ hc
    rcases e with e | e <;> rw [e] <;> decide
  rw [if_neg e]
  exact ite (bAssign c) (throwE _)

end Roomy

end Rsh
