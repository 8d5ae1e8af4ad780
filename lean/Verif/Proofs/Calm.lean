import Verif.Proofs.Frames
import Verif.Proofs.External
import Verif.Proofs.Pipeline
import Verif.Spec.Named
import Verif.Spec.CtxOps
import Verif.Proofs.Digits

/-!
# What commands cannot do whose names do not occur

A walk through the evaluator for programs that have no command named in `D`.
-/

namespace Rsh

open Spec

/-- What is known: no command is named in `D`, the events `event` are possible for other reasons, and so are other
ends if `ends`; the start of the shell is included if `opens`. -/
structure Lack where
  D : List Str
  event : Event → Prop
  ends : Prop
  opens : Prop

/-- The events of the shell itself if no command is named in `D`. -/
def Allowed (L : Lack) (e : Event) : Prop :=
  L.event e ∨ match e with
  | .readFile _ => False
  | .opened _ _ => False
  | .kill _ => ¬ (cs!"fg" ∈ L.D ∧ cs!"bg" ∈ L.D)
  | .chdir _ => cs!"cd" ∉ L.D
  | .saveHistory _ => cs!"exit" ∉ L.D
  | _ => True

/-- `m'` comes from `m` by operations on contexts; if `quiet`, by those of function definitions, calls and returns. -/
def Steps (quiet : Prop) (m m' : CtxMgr) : Prop :=
  ∃ os, runOps m os = some m' ∧ (quiet → ∀ o ∈ os, o.Benign)

/-- `m'` comes from `m` by steps that leave the functions as they are. -/
structure SameFuns (m m' : CtxMgr) : Prop where
  next : m.next ≤ m'.next
  old : ∀ j, j < m.next → (m'.heap j).funcs = (m.heap j).funcs
  new : ∀ j, m.next ≤ j → j < m'.next → (m'.heap j).funcs = []
  names : m'.exported = m.exported
  stack : ∀ j ∈ m'.stack, j < m.next → j ∈ m.stack

theorem SameFuns.of_eq {m m' : CtxMgr} (h : m' = m) : SameFuns m m' :=
  h ▸ ⟨Nat.le_refl _, fun _ _ => rfl, fun _ h h' => absurd h' (Nat.not_lt.2 h), rfl, fun _ h _ => h⟩

theorem SameFuns.trans {a b c : CtxMgr} (h1 : SameFuns a b) (h2 : SameFuns b c) : SameFuns a c :=
  ⟨Nat.le_trans h1.next h2.next, fun j hj => (h2.old j (Nat.lt_of_lt_of_le hj h1.next)).trans (h1.old j hj),
    fun j hj hj' => if hb : j < b.next then (h2.old j hb).trans (h1.new j hj hb) else h2.new j (Nat.le_of_not_lt hb) hj',
    h2.names.trans h1.names, fun j hj hn => h1.stack j (h2.stack j hj (Nat.lt_of_lt_of_le hn h1.next)) hn⟩

theorem SameFuns.setCtx {m : CtxMgr} {id : Nat} {c : Ctx} (h : c.funcs = (m.heap id).funcs) : SameFuns m (m.setCtx id c) := by
  refine ⟨Nat.le_refl _, fun j _ => ?_, fun _ h h' => absurd h' (Nat.not_lt.2 h), rfl, fun _ h _ => h⟩
  unfold CtxMgr.setCtx
  simp only
  split
  · next e => subst e; exact h
  · rfl

theorem SameFuns.push (m : CtxMgr) : SameFuns m m.pushNew := by
  refine ⟨Nat.le_succ _, fun j hj => ?_, fun j hj hj' => ?_, rfl, fun j hj hn => ?_⟩
  · unfold CtxMgr.pushNew
    simp only
    rw [if_neg (Nat.ne_of_lt hj)]
  · obtain rfl : j = m.next := Nat.le_antisymm (Nat.le_of_lt_succ hj') hj
    unfold CtxMgr.pushNew
    simp
  · rcases List.mem_cons.1 hj with rfl | hj
    · exact absurd hn (Nat.lt_irrefl _)
    · exact hj

theorem SameFuns.pop {m m' : CtxMgr} {id : Nat} (h : m.pop = some (id, m')) : SameFuns m m' := by
  unfold CtxMgr.pop at h
  split at h
  · next e =>
    cases h
    exact ⟨Nat.le_refl _, fun _ _ => rfl, fun _ h h' => absurd h' (Nat.not_lt.2 h), rfl,
      fun j hj _ => by rw [e]; exact List.mem_cons_of_mem _ hj⟩
  · cases h

/-- What stays as it is. -/
structure Kept (L : Lack) (s s' : Sh) : Prop where
  env : s'.env = s.env
  modes : (s'.forked, s'.interactive) = (s.forked, s.interactive)
  aliases : cs!"unalias" ∈ L.D → s'.aliases = s.aliases
  cwd : cs!"cd" ∈ L.D → s'.cwd = s.cwd
  vars : cs!"readonly" ∈ L.D → cs!"unset" ∈ L.D → ¬ L.opens → Steps ([] ∈ L.D) s.ctx s'.ctx
  funs : defMark ∈ L.D → cs!"unset" ∈ L.D → ¬ L.opens → SameFuns s.ctx s'.ctx
  events : ∃ l, s'.trace = l ++ s.trace ∧ ∀ e ∈ l, Allowed L e

/-- No signal arrives during a command substitution. -/
def NoSig (w : World) : Prop := ∀ tr, w.substSig tr = none

/-- How evaluation does not end. -/
def OutOk (L : Lack) (w : World) (forked : Bool) : Out α → Prop
  | .execed _ => cs!"exec" ∉ L.D
  | .exit _ => cs!"exit" ∉ L.D ∨ forked = true ∨ ¬ NoSig w ∨ L.ends
  | _ => True

variable {L : Lack} {w : World}

/-- The claim about the result of `m` started in `s`. -/
structure CPost (L : Lack) (w : World) (s : Sh) (r : Out α × Sh) : Prop where
  tame : Confined L.D r.2
  kept : Kept L s r.2
  out : OutOk L w s.forked r.1

/-- The commands `m` runs are not named in `D`. -/
def Calm (L : Lack) (w : World) (m : M α) : Prop := ∀ s, Confined L.D s → CPost L w s (m s)

theorem runOps_append (m : CtxMgr) (a b : List CtxOp) : runOps m (a ++ b) = (runOps m a).bind fun m' => runOps m' b := by
  induction a generalizing m with
  | nil => rfl
  | cons o a ih =>
    simp only [List.cons_append, runOps]
    cases o.run m with
    | none => rfl
    | some m1 => exact ih m1

theorem runOps_one {m m' : CtxMgr} {o : CtxOp} {q : Prop} (h : o.run m = some m') (hb : q → o.Benign) : Steps q m m' :=
  ⟨[o], by simp only [runOps, h]; rfl, by simpa using hb⟩

theorem runOps_same {m m' : CtxMgr} {q : Prop} (h : m' = m) : Steps q m m' := ⟨[], by rw [h]; rfl, by simp⟩

namespace Kept

theorem forked {s s' : Sh} (h : Kept L s s') : s'.forked = s.forked := congrArg Prod.fst h.modes
theorem interactive {s s' : Sh} (h : Kept L s s') : s'.interactive = s.interactive := congrArg Prod.snd h.modes

theorem refl (s : Sh) : Kept L s s := ⟨rfl, rfl, fun _ => rfl, fun _ => rfl, fun _ _ _ => runOps_same rfl, fun _ _ _ => .of_eq rfl, [], rfl, by simp⟩

theorem trans {a b c : Sh} (h1 : Kept L a b) (h2 : Kept L b c) : Kept L a c := by
  obtain ⟨l1, e1, m1⟩ := h1.events
  obtain ⟨l2, e2, m2⟩ := h2.events
  refine ⟨h2.env.trans h1.env, h2.modes.trans h1.modes, fun h => (h2.aliases h).trans (h1.aliases h),
    fun h => (h2.cwd h).trans (h1.cwd h), fun h h' h'' => ?_,
    fun h h' h'' => (h1.funs h h' h'').trans (h2.funs h h' h''), l2 ++ l1, by rw [e2, e1, List.append_assoc], fun e he => ?_⟩
  · obtain ⟨os1, r1, b1⟩ := h1.vars h h' h''
    obtain ⟨os2, r2, b2⟩ := h2.vars h h' h''
    exact ⟨os1 ++ os2, by rw [runOps_append, r1]; exact r2, fun q o ho => (List.mem_append.1 ho).elim (b1 q o) (b2 q o)⟩
  rcases List.mem_append.1 he with he | he
  · exact m2 e he
  · exact m1 e he

end Kept

theorem Spec.Confined.same {D : List Str} {s s' : Sh} (h : Confined D s) (h1 : s'.ctx.heap = s.ctx.heap) (h2 : s'.aliases = s.aliases) : Confined D s' :=
  ⟨fun id f b hb => h.functions id f b (by rw [← h1]; exact hb), fun k hk => by rw [h2]; exact h.aliases k hk⟩

namespace Calm

theorem pure (a : α) : Calm L w (Pure.pure a : M α) := fun s h => ⟨h, .refl s, trivial⟩
theorem getS : Calm L w Rsh.getS := fun s h => ⟨h, .refl s, trivial⟩
theorem throwE (e : Str) : Calm L w (Rsh.throwE e : M α) := fun s h => ⟨h, .refl s, trivial⟩
theorem panicM (k : PanicKind) : Calm L w (Rsh.panicM k : M α) := fun s h => ⟨h, .refl s, trivial⟩
theorem hangM : Calm L w (Rsh.hangM : M α) := fun s h => ⟨h, .refl s, trivial⟩
theorem deepM : Calm L w (Rsh.deepM : M α) := fun s h => ⟨h, .refl s, trivial⟩

theorem unwrapM (k : PanicKind) (o : Option α) : Calm L w (Rsh.unwrapM k o) := by
  cases o with
  | none => exact panicM k
  | some a => exact pure a

theorem bindAt {m : M α} {f : α → M β} {s : Sh} (hm : CPost L w s (m s))
    (hf : ∀ a s1, m s = (.ok a, s1) → Confined L.D s1 → CPost L w s1 (f a s1)) : CPost L w s ((m >>= f) s) := by
  rw [run_bind]
  rcases h : m s with ⟨o, s1⟩
  rw [h] at hm
  cases o with
  | ok a =>
    have h2 := hf a s1 h hm.tame
    have h3 := h2.out
    rw [hm.kept.forked] at h3
    exact ⟨h2.tame, hm.kept.trans h2.kept, h3⟩
  | _ => exact ⟨hm.tame, hm.kept, hm.out⟩

theorem bind {m : M α} {f : α → M β} (hm : Calm L w m) (hf : ∀ a, Calm L w (f a)) : Calm L w (m >>= f) :=
  fun s h => bindAt (hm s h) fun a s1 _ => hf a s1

theorem ite {c : Prop} [Decidable c] {a b : M α} (ha : Calm L w a) (hb : Calm L w b) :
    Calm L w (if c then a else b) := by split <;> assumption

theorem tryE {m : M α} (h : Calm L w m) : Calm L w (Rsh.tryE m) := by
  intro s h1
  rw [run_tryE]
  have h3 := h s h1
  rcases h : m s with ⟨o, s1⟩
  rw [h] at h3
  cases o with
  | err e => exact ⟨h3.tame, h3.kept, trivial⟩
  | ok e => exact ⟨h3.tame, h3.kept, trivial⟩
  | _ => exact ⟨h3.tame, h3.kept, h3.out⟩

/-- Steps that leave everything observed here as it is. -/
theorem stateOnly {m : M α} (h : ∀ s, (m s).2.ctx = s.ctx ∧ (m s).2.aliases = s.aliases ∧ (m s).2.env = s.env ∧
    ((m s).2.forked, (m s).2.interactive) = (s.forked, s.interactive) ∧ (m s).2.cwd = s.cwd ∧ (m s).2.trace = s.trace)
    (ho : ∀ s, OutOk L w s.forked (m s).1) : Calm L w m := by
  intro s ht
  obtain ⟨h1, h2, h3, h4, h5, h6⟩ := h s
  exact ⟨ht.same (congrArg CtxMgr.heap h1) h2, ⟨h3, h4, fun _ => h2, fun _ => h5, fun _ _ _ => runOps_same h1, fun _ _ _ => .of_eq h1, [], h6, by simp⟩, ho s⟩

theorem modS {f : Sh → Sh} (h : ∀ s, (f s).ctx = s.ctx ∧ (f s).aliases = s.aliases ∧ (f s).env = s.env ∧
    ((f s).forked, (f s).interactive) = (s.forked, s.interactive) ∧ (f s).cwd = s.cwd ∧ (f s).trace = s.trace) : Calm L w (Rsh.modS f) :=
  stateOnly h fun _ => trivial

theorem event {f : Sh → Sh} (e : Sh → Event) (he : ∀ s, Allowed L (e s))
    (h : ∀ s, (f s).ctx = s.ctx ∧ (f s).aliases = s.aliases ∧ (f s).env = s.env ∧
    ((f s).forked, (f s).interactive) = (s.forked, s.interactive) ∧ (f s).cwd = s.cwd ∧ (f s).trace = e s :: s.trace) : Calm L w (Rsh.modS f) := by
  intro s ht
  obtain ⟨h1, h2, h3, h4, h5, h6⟩ := h s
  exact ⟨ht.same (congrArg CtxMgr.heap h1) h2, ⟨h3, h4, fun _ => h2, fun _ => h5, fun _ _ _ => runOps_same h1, fun _ _ _ => .of_eq h1, [e s], h6, by simpa using he s⟩, trivial⟩

theorem emit {e : Event} (he : Allowed L e) : Calm L w (Rsh.emit e) :=
  event (fun _ => e) (fun _ => he) fun _ => ⟨rfl, rfl, rfl, rfl, rfl, rfl⟩

theorem printM (t : Str) : Calm L w (Rsh.printM t) :=
  event (fun s => .print ((s.fds.get 1).map FdE.chan) t) (fun _ => .inr trivial) fun _ => ⟨rfl, rfl, rfl, rfl, rfl, rfl⟩
theorem eprintM (t : Str) : Calm L w (Rsh.eprintM t) :=
  event (fun s => .eprint ((s.fds.get 2).map FdE.chan) t) (fun _ => .inr trivial) fun _ => ⟨rfl, rfl, rfl, rfl, rfl, rfl⟩
theorem printlnM (t : Str) : Calm L w (Rsh.printlnM t) := printM _
theorem eprintlnM (t : Str) : Calm L w (Rsh.eprintlnM t) := eprintM _
theorem interruptsOff : Calm L w Rsh.interruptsOff := modS fun _ => ⟨rfl, rfl, rfl, rfl, rfl, rfl⟩
theorem interruptsOn : Calm L w Rsh.interruptsOn := modS fun _ => ⟨rfl, rfl, rfl, rfl, rfl, rfl⟩

theorem emitPrint (c : Option Chan) (t : Str) : Calm L w (Rsh.emit (.print c t)) := emit (.inr trivial)
theorem emitSubst (e : ChildEnd) (l : List Event) : Calm L w (Rsh.emit (.subst e l)) := emit (.inr trivial)
theorem emitSpawn (p : Nat) (e : ChildEnd) (l : List Event) : Calm L w (Rsh.emit (.spawn p e l)) := emit (.inr trivial)
theorem emitForkFailed : Calm L w (Rsh.emit .forkFailed) := emit (.inr trivial)

theorem runChild (m : M α) : Calm L w (Rsh.runChild w m) := by
  refine stateOnly (fun s => ?_) fun s => ?_
  · unfold Rsh.runChild
    dsimp only
    split <;> exact ⟨rfl, rfl, rfl, rfl, rfl, rfl⟩
  · unfold Rsh.runChild
    dsimp only
    split <;> trivial

/-- Close a goal `Calm L w m` by the structure of `m`. -/
macro "calm" : tactic => `(tactic| repeat' first
  | assumption
  | with_reducible exact Calm.pure _
  | with_reducible exact Calm.getS
  | with_reducible exact Calm.throwE _
  | with_reducible exact Calm.panicM _
  | with_reducible exact Calm.hangM
  | with_reducible exact Calm.deepM
  | with_reducible exact Calm.unwrapM _ _
  | with_reducible exact Calm.runChild _
  | with_reducible exact Calm.printM _
  | with_reducible exact Calm.printlnM _
  | with_reducible exact Calm.eprintM _
  | with_reducible exact Calm.eprintlnM _
  | with_reducible exact Calm.interruptsOff
  | with_reducible exact Calm.interruptsOn
  | with_reducible exact Calm.emitPrint _ _
  | with_reducible exact Calm.emitSubst _ _
  | with_reducible exact Calm.emitSpawn _ _ _
  | with_reducible exact Calm.emitForkFailed
  | with_reducible exact Calm.modS fun _ => ⟨rfl, rfl, rfl, rfl, rfl, rfl⟩
  | with_reducible refine Calm.bind ?_ fun _ => ?_
  | with_reducible refine Calm.tryE ?_
  | with_reducible refine Calm.ite ?_ ?_
  | with_reducible apply_assumption
  | dsimp only
  | split)

/-! ## Variables and functions -/

/-- The functions of `m'` are among those of `m`. -/
def FunsIn (m m' : CtxMgr) : Prop :=
  ∀ id f b, (m'.heap id).getFunction f = some b → (m.heap id).getFunction f = some b

theorem setCtx_funs {m : CtxMgr} {id : Nat} {c : Ctx} (h : ∀ f b, c.getFunction f = some b → (m.heap id).getFunction f = some b) :
    FunsIn m (m.setCtx id c) := by
  intro i f b hb
  unfold CtxMgr.setCtx at hb
  simp only at hb
  split at hb
  · next e => subst e; exact h f b hb
  · exact hb

theorem addSet_funs {c c' : Ctx} {set : Str} (h : c.addSet set = some c') : c'.funcs = c.funcs := by
  unfold Ctx.addSet at h
  simp only at h
  split at h
  · cases h; rfl
  · cases h

theorem addSetReadonly_funs {c c' : Ctx} {set : Str} (h : c.addSetReadonly set = some c') : c'.funcs = c.funcs := by
  unfold Ctx.addSetReadonly at h
  simp only at h
  split at h
  · cases h; rfl
  · cases h

theorem mapSet_funs {m m' : CtxMgr} {id : Nat} {set : Str} (h : ((m.heap id).addSet set).map (m.setCtx id) = some m') :
    FunsIn m m' := by
  rcases hc : (m.heap id).addSet set with _ | c
  · rw [hc] at h; cases h
  · rw [hc] at h; cases h
    exact setCtx_funs fun f b hb => by unfold Ctx.getFunction at hb ⊢; rw [← addSet_funs hc]; exact hb

theorem mapSetReadonly_funs {m m' : CtxMgr} {id : Nat} {set : Str}
    (h : ((m.heap id).addSetReadonly set).map (m.setCtx id) = some m') : FunsIn m m' := by
  rcases hc : (m.heap id).addSetReadonly set with _ | c
  · rw [hc] at h; cases h
  · rw [hc] at h; cases h
    exact setCtx_funs fun f b hb => by unfold Ctx.getFunction at hb ⊢; rw [← addSetReadonly_funs hc]; exact hb

theorem FunsIn.refl (m : CtxMgr) : FunsIn m m := fun _ _ _ h => h

theorem addVar_funs {m m' : CtxMgr} {set : Str} (h : m.addVar set = some m') : FunsIn m m' := by
  unfold CtxMgr.addVar at h
  simp only at h
  split at h
  · split at h
    · split at h
      · cases h; exact .refl _
      · exact mapSet_funs h
    · cases h; exact .refl _
  · rcases hc : m.current with _ | id
    · rw [hc] at h; cases h
    · rw [hc] at h; exact mapSet_funs h

theorem addVarReadonly_funs {m m' : CtxMgr} {set : Str} (h : m.addVarReadonly set = some m') : FunsIn m m' := by
  unfold CtxMgr.addVarReadonly at h
  simp only at h
  split at h
  · split at h
    · exact mapSetReadonly_funs h
    · cases h; exact .refl _
  · split at h
    · exact mapSetReadonly_funs h
    · rcases hc : m.current with _ | id
      · rw [hc] at h; cases h
      · rw [hc] at h; exact mapSetReadonly_funs h

theorem markReadonly_funs {m m' : CtxMgr} {id : Nat} {x : Str} (h : m.markReadonly id x = some m') : FunsIn m m' := by
  unfold CtxMgr.markReadonly at h
  rcases hc : (m.heap id).getVar x with _ | v
  · rw [hc] at h; cases h
  · rw [hc] at h; cases h
    exact setCtx_funs fun f b hb => hb

theorem setVarReadonly_funs {m m' : CtxMgr} {x : Str} (h : m.setVarReadonly x = some m') : FunsIn m m' := by
  unfold CtxMgr.setVarReadonly at h
  split at h
  · split at h
    · exact markReadonly_funs h
    · cases h; exact .refl _
  · split at h
    · exact markReadonly_funs h
    · rcases hc : m.current with _ | id
      · rw [hc] at h; cases h
      · rw [hc] at h; exact markReadonly_funs h

theorem addVar_same {m m' : CtxMgr} {set : Str} (h : m.addVar set = some m') : SameFuns m m' := by
  unfold CtxMgr.addVar at h
  simp only at h
  have key : ∀ id, ((m.heap id).addSet set).map (m.setCtx id) = some m' → SameFuns m m' := by
    intro id h
    obtain ⟨c, hc, rfl⟩ := Option.map_eq_some_iff.1 h
    exact .setCtx (addSet_funs hc)
  split at h
  · split at h
    · split at h
      · cases h; exact .of_eq rfl
      · exact key _ h
    · cases h; exact .of_eq rfl
  · obtain ⟨t, _, h⟩ := Option.bind_eq_some_iff.1 h
    exact key _ h

theorem addVarReadonly_same {m m' : CtxMgr} {set : Str} (h : m.addVarReadonly set = some m') : SameFuns m m' := by
  have key : ∀ id x, ((m.heap id).addSetReadonly x).map (m.setCtx id) = some m' → SameFuns m m' := by
    intro id x h
    obtain ⟨c, hc, rfl⟩ := Option.map_eq_some_iff.1 h
    exact .setCtx (addSetReadonly_funs hc)
  unfold CtxMgr.addVarReadonly at h
  simp only at h
  split at h
  · split at h
    · exact key _ _ h
    · cases h; exact .of_eq rfl
  · split at h
    · exact key _ _ h
    · obtain ⟨t, _, h⟩ := Option.bind_eq_some_iff.1 h
      exact key _ _ h

theorem setVarReadonly_same {m m' : CtxMgr} {x : Str} (h : m.setVarReadonly x = some m') : SameFuns m m' := by
  have key : ∀ id x, m.markReadonly id x = some m' → SameFuns m m' := by
    intro id x h
    unfold CtxMgr.markReadonly at h
    obtain ⟨c, hc, rfl⟩ := Option.map_eq_some_iff.1 h
    exact .setCtx rfl
  unfold CtxMgr.setVarReadonly at h
  split at h
  · split at h
    · exact key _ _ h
    · cases h; exact .of_eq rfl
  · split at h
    · exact key _ _ h
    · obtain ⟨t, _, h⟩ := Option.bind_eq_some_iff.1 h
      exact key _ _ h

theorem removeVar_funs (m : CtxMgr) (x : Str) : FunsIn m (m.removeVar x) := by
  unfold CtxMgr.removeVar
  split
  · split
    · exact setCtx_funs fun f b hb => hb
    · exact .refl _
  · split
    · exact setCtx_funs fun f b hb => hb
    · exact .refl _

theorem erase_get {m : AMap β} {k f : Str} {b : β} (h : (m.erase k).get f = some b) : m.get f = some b := by
  by_cases e : f = k
  · rw [e, AMap.get_erase_self] at h; cases h
  · rwa [AMap.get_erase_ne _ e] at h

theorem removeFunction_funs (m : CtxMgr) (x : Str) : FunsIn m (m.removeFunction x) := by
  unfold CtxMgr.removeFunction
  split
  · split
    · exact setCtx_funs fun f b hb => erase_get hb
    · exact .refl _
  · split
    · exact setCtx_funs fun f b hb => erase_get hb
    · exact .refl _

/-- A change of the variables and functions. -/
theorem ctxStep {f : Sh → Sh} (hg : ∀ s, defMark ∈ L.D → cs!"unset" ∈ L.D → ¬ L.opens → SameFuns s.ctx (f s).ctx) (ho : ∀ s, cs!"readonly" ∈ L.D → cs!"unset" ∈ L.D → ¬ L.opens → Steps ([] ∈ L.D) s.ctx (f s).ctx)
    (h : ∀ s, FunsIn s.ctx (f s).ctx ∧ (f s).aliases = s.aliases ∧ (f s).env = s.env ∧
    ((f s).forked, (f s).interactive) = (s.forked, s.interactive) ∧ (f s).cwd = s.cwd ∧ (f s).trace = s.trace) : Calm L w (Rsh.modS f) := by
  intro s ht
  obtain ⟨h1, h2, h3, h4, h5, h6⟩ := h s
  refine ⟨⟨fun id g b hb => ht.functions id g b (h1 id g b hb), fun k hk => ?_⟩,
    ⟨h3, h4, fun _ => h2, fun _ => h5, ho s, hg s, [], h6, by simp⟩, trivial⟩
  show (f s).aliases.get k = none
  rw [h2]; exact ht.aliases k hk

theorem setCtxAt {s : Sh} {m : CtxMgr} (ht : Confined L.D s) (h : FunsIn s.ctx m)
    (hg : defMark ∈ L.D → cs!"unset" ∈ L.D → ¬ L.opens → SameFuns s.ctx m)
    (ho : cs!"readonly" ∈ L.D → cs!"unset" ∈ L.D → ¬ L.opens → Steps ([] ∈ L.D) s.ctx m) : CPost L w s (Rsh.setCtxMgr m s) :=
  ⟨⟨fun id g b hb => ht.functions id g b (h id g b hb), ht.aliases⟩,
    ⟨rfl, rfl, fun _ => rfl, fun _ => rfl, ho, hg, [], rfl, by simp⟩, trivial⟩

theorem unwrapCtx {s : Sh} {k : PanicKind} {o : Option CtxMgr} (ht : Confined L.D s) (h : ∀ m, o = some m → FunsIn s.ctx m)
    (hg : ∀ m, o = some m → defMark ∈ L.D → cs!"unset" ∈ L.D → ¬ L.opens → SameFuns s.ctx m)
    (ho : ∀ m, o = some m → cs!"readonly" ∈ L.D → cs!"unset" ∈ L.D → ¬ L.opens → Steps ([] ∈ L.D) s.ctx m) :
    CPost L w s ((Rsh.unwrapM k o >>= fun m => setCtxMgr m) s) := by
  cases o with
  | none => exact ⟨ht, .refl s, trivial⟩
  | some m => exact setCtxAt ht (h m rfl) (hg m rfl) (ho m rfl)

theorem addVarContext (set : Str) (hq : [] ∈ L.D → (CtxOp.assign set).Benign) : Calm L w (Rsh.addVarContext set) := by
  intro s ht
  unfold Rsh.addVarContext
  rw [run_getS_bind]
  exact unwrapCtx ht (fun m h => addVar_funs h) (fun m h _ _ _ => addVar_same h) fun m h _ _ _ => runOps_one (o := .assign set) h hq

theorem addVarAt (h' : L.opens) (set : Str) (pos : Nat) : Calm L w (Rsh.addVarAt set pos) := by
  intro s ht
  unfold Rsh.addVarAt
  rw [run_getS_bind]
  refine unwrapCtx ht (fun m h => ?_) (fun _ _ _ _ hn => absurd h' hn) fun _ _ _ _ hn => absurd h' hn
  unfold CtxMgr.addVarPos at h
  rcases hc : s.ctx.atPos pos with _ | id
  · rw [hc] at h; cases h
  · rw [hc] at h; exact mapSet_funs h

theorem pushContextNew : Calm L w Rsh.pushContextNew := by
  refine ctxStep (fun s _ _ _ => .push _) (fun s _ _ _ => runOps_one (o := .push) rfl fun _ => trivial) fun s => ⟨fun id f b hb => ?_, rfl, rfl, rfl, rfl, rfl⟩
  unfold CtxMgr.pushNew at hb
  simp only at hb
  split at hb
  · cases hb
  · exact hb

theorem popContext : Calm L w Rsh.popContext := by
  intro s ht
  unfold Rsh.popContext
  rw [run_getS_bind]
  rcases hp : s.ctx.pop with _ | ⟨id, m⟩
  · exact ⟨ht, .refl s, trivial⟩
  · rw [unwrapM_some]
    show CPost L w s ((setCtxMgr m >>= fun _ => Pure.pure id) s)
    refine bindAt (setCtxAt ht ?_ (fun _ _ _ => .pop hp) fun _ _ _ => runOps_one (o := .pop) (by simp only [CtxOp.run, hp]; rfl) fun _ => trivial) fun _ s1 _ h1 => pure _ s1 h1
    unfold CtxMgr.pop at hp
    split at hp
    · cases hp; exact fun _ _ _ h => h
    · cases hp

theorem insert_get {m : AMap β} {k f : Str} {b v : β} (h : (m.insert k v).get f = some b) : b = v ∨ m.get f = some b := by
  by_cases e : f = k
  · rw [e, AMap.get_insert_self] at h; cases h; exact .inl rfl
  · rw [AMap.get_insert_ne _ _ e] at h; exact .inr h

theorem ctxAddFunction {c : Ctx} {f g : Str} {b b' : FunctionBody} (h : ((c.addFunction f b).1).getFunction g = some b') :
    b' = b ∨ c.getFunction g = some b' := by
  unfold Ctx.addFunction at h
  split at h
  · exact .inr h
  · exact insert_get h

theorem addFunction_funs {m : CtxMgr} {f : Str} {b : FunctionBody} {id : Nat} {g : Str} {b' : FunctionBody}
    (h : ((m.addFunction f b).1.heap id).getFunction g = some b') : b' = b ∨ (m.heap id).getFunction g = some b' := by
  unfold CtxMgr.addFunction at h
  split at h
  · simp only [CtxMgr.setCtx] at h
    split at h
    · next e => subst e; exact ctxAddFunction h
    · exact .inr h
  · split at h
    · simp only [CtxMgr.setCtx] at h
      split at h
      · next e => subst e; exact ctxAddFunction h
      · exact .inr h
    · exact .inr h

theorem addFunctionM {f : Str} {b : FunctionBody} (hd : defMark ∉ L.D) (hb : ∀ x ∈ bodyNames b, x ∉ L.D) : Calm L w (Rsh.addFunctionM f b) := by
  intro s ht
  unfold Rsh.addFunctionM
  rw [run_getS_bind]
  have key : ∀ id g b', ((s.ctx.addFunction f b).1.heap id).getFunction g = some b' → ∀ x ∈ bodyNames b', x ∉ L.D := by
    intro id g b' h
    rcases addFunction_funs h with rfl | h1
    · exact hb
    · exact ht.functions id g b' h1
  rcases e : s.ctx.addFunction f b with ⟨m, ro⟩
  rw [e] at key
  simp only
  refine bindAt (m := setCtxMgr m) ⟨⟨key, ht.aliases⟩, ⟨rfl, rfl, fun _ => rfl, fun _ => rfl,
    fun _ _ _ => runOps_one (o := .define f b) (by simp only [CtxOp.run, e]; rfl) fun _ => trivial, fun h => absurd h hd, [], rfl, by simp⟩, trivial⟩
    fun _ s1 _ h1 => ?_
  exact ite (eprintlnM _) (pure _) s1 h1

theorem expandVar (h : Held) (x : Str) : Calm L w (Rsh.expandVar h x) := by unfold Rsh.expandVar; calm
theorem lookupCommandM (x : Str) : Calm L w (Rsh.lookupCommandM w x) := by unfold Rsh.lookupCommandM; calm
theorem wordAt (ws : List Str) (i : Nat) : Calm L w (Rsh.wordAt ws i) := unwrapM _ _

/-! ## Descriptors and signals -/

theorem pipeM : Calm L w (Rsh.pipeM w) := by
  refine stateOnly (fun s => ?_) fun s => ?_ <;> unfold Rsh.pipeM <;> split
  · exact ⟨rfl, rfl, rfl, rfl, rfl, rfl⟩
  · exact ⟨rfl, rfl, rfl, rfl, rfl, rfl⟩
  · trivial
  · trivial

theorem closeM (fd : Int) : Calm L w (Rsh.closeM fd) := by
  refine stateOnly (fun s => ?_) fun s => ?_ <;> unfold Rsh.closeM <;> split
  · exact ⟨rfl, rfl, rfl, rfl, rfl, rfl⟩
  · exact ⟨rfl, rfl, rfl, rfl, rfl, rfl⟩
  · trivial
  · trivial

theorem closeU (fd : Int) : Calm L w (Rsh.closeU fd) := by
  have := closeM (L := L) (w := w) fd
  unfold Rsh.closeU; calm

theorem removeHandlers : Calm L w Rsh.removeHandlers := modS fun _ => ⟨rfl, rfl, rfl, rfl, rfl, rfl⟩

theorem onSigOther (g : Nat) : Calm L w (Rsh.onSigOther w g) := by
  unfold Rsh.onSigOther; calm

theorem substSignal (tr : List Event) : Calm L w (Rsh.substSignal w (w.substSig tr)) := by
  have := onSigOther (L := L) (w := w)
  rcases h : w.substSig tr with _ | g
  · exact pure _
  · have hx : ∀ c, Calm L w (exitM c : M Unit) := fun c s ht =>
      ⟨ht, .refl s, .inr (.inr (.inl fun hn => by rw [hn tr] at h; cases h))⟩
    unfold Rsh.substSignal
    calm

/-! ## Jobs -/

theorem modJc (f : JobControl → JobControl) : Calm L w (Rsh.modJc f) := modS fun _ => ⟨rfl, rfl, rfl, rfl, rfl, rfl⟩

theorem deleteJobM (id : Nat) : Calm L w (Rsh.deleteJobM id) := by
  have := modJc (L := L) (w := w)
  unfold Rsh.deleteJobM; calm

theorem createJobM (ps : List Process) (b : Bool) : Calm L w (Rsh.createJobM ps b) :=
  stateOnly (fun _ => ⟨rfl, rfl, rfl, rfl, rfl, rfl⟩) fun _ => trivial

theorem showJobs (h : Held) (t : List (Nat × Job)) : Calm L w (Rsh.showJobs h t) := by
  have := expandVar (L := L) (w := w)
  induction t with
  | nil => exact pure _
  | cons p t ih => unfold Rsh.showJobs; calm

theorem waitpidM : Calm L w Rsh.waitpidM := by
  intro s ht
  unfold Rsh.waitpidM
  split
  · exact ⟨ht, .refl s, trivial⟩
  · next r rs _ =>
    exact ⟨ht.same rfl rfl, ⟨rfl, rfl, fun _ => rfl, fun _ => rfl, fun _ _ _ => runOps_same rfl, fun _ _ _ => .of_eq rfl, [.waited r], rfl, by simp [Allowed]⟩, trivial⟩

theorem waitRetry (n : Nat) : Calm L w (Rsh.waitRetry n) := by
  have := waitpidM (L := L) (w := w)
  induction n with
  | zero => exact hangM
  | succ n ih => unfold Rsh.waitRetry; calm

theorem waitProcess : Calm L w Rsh.waitProcess := by
  have := waitRetry (L := L) (w := w)
  unfold Rsh.waitProcess; calm

theorem formatStatus (st : WStatus) : Calm L w (Rsh.formatStatus w st) := by
  have := expandVar (L := L) (w := w)
  unfold Rsh.formatStatus
  refine bind getS fun s => ?_
  simp only
  calm

theorem waitOne (id : Nat) : Calm L w (Rsh.waitOne w id) := by
  have := waitProcess (L := L) (w := w)
  have := formatStatus (L := L) (w := w)
  have := modJc (L := L) (w := w)
  unfold Rsh.waitOne; calm

theorem doWaitLoop (id n : Nat) (b : Bool) : Calm L w (Rsh.doWaitLoop w id n b) := by
  have := waitOne (L := L) (w := w)
  induction n generalizing b with
  | zero => exact hangM
  | succ n ih => unfold Rsh.doWaitLoop; calm

theorem doWait (id : Nat) : Calm L w (Rsh.doWait w id) := by
  have := doWaitLoop (L := L) (w := w)
  unfold Rsh.doWait; calm

theorem waitForJob (id : Nat) : Calm L w (Rsh.waitForJob w id) := by
  have := doWait (L := L) (w := w)
  have := deleteJobM (L := L) (w := w)
  unfold Rsh.waitForJob; calm

/-! ## Expansion -/

variable {rec : List AndOr → M Int}

theorem aliasLookup (c : SimpleCommand) : Calm L w (Rsh.aliasLookup c) := by unfold Rsh.aliasLookup; calm
theorem expandVars (c : SimpleCommand) : Calm L w (Rsh.expandVars c) := by unfold Rsh.expandVars; calm

theorem evalSubshell (x : Str) : Calm L w (Rsh.evalSubshell w rec x) := by
  have := closeU (L := L) (w := w)
  have := pipeM (L := L) (w := w)
  have := substSignal (L := L) (w := w)
  unfold Rsh.evalSubshell
  calm

theorem cutLoop (n : Nat) (x : Str) : Calm L w (Rsh.cutLoop w rec n x) := by
  have := evalSubshell (L := L) (w := w) (rec := rec)
  induction n generalizing x with
  | zero => exact pure _
  | succ n ih =>
    cases x with
    | nil => exact pure _
    | cons c x => unfold Rsh.cutLoop; calm

theorem cutQuotes (x : Str) : Calm L w (Rsh.cutQuotes w rec x) := by
  have := cutLoop (L := L) (w := w) (rec := rec)
  unfold Rsh.cutQuotes; calm

theorem evalDoubleQuotes (x : Str) : Calm L w (Rsh.evalDoubleQuotes w rec x) := by
  have := cutQuotes (L := L) (w := w) (rec := rec)
  have := evalSubshell (L := L) (w := w) (rec := rec)
  unfold Rsh.evalDoubleQuotes; calm

theorem evalNameWords (ps : List Str) : Calm L w (Rsh.evalNameWords w rec ps) := by
  have := evalDoubleQuotes (L := L) (w := w) (rec := rec)
  induction ps with
  | nil => exact pure _
  | cons p ps ih => unfold Rsh.evalNameWords; calm

theorem evalSuffixWords (ps : List Str) : Calm L w (Rsh.evalSuffixWords w rec ps) := by
  have := evalDoubleQuotes (L := L) (w := w) (rec := rec)
  have := cutQuotes (L := L) (w := w) (rec := rec)
  induction ps with
  | nil => exact pure _
  | cons p ps ih => unfold Rsh.evalSuffixWords; calm

theorem evalWords (c : SimpleCommand) : Calm L w (Rsh.evalWords w rec c) := by
  have := evalNameWords (L := L) (w := w) (rec := rec)
  have := evalSuffixWords (L := L) (w := w) (rec := rec)
  have := cutQuotes (L := L) (w := w) (rec := rec)
  unfold Rsh.evalWords; calm

theorem expandCommand (c : SimpleCommand) : Calm L w (Rsh.expandCommand w rec c) := by
  have := aliasLookup (L := L) (w := w)
  have := expandVars (L := L) (w := w)
  have := evalWords (L := L) (w := w) (rec := rec)
  unfold Rsh.expandCommand; calm

/-! ## Builtins -/

theorem displayJobs : Calm L w Rsh.displayJobs := by
  have := showJobs (L := L) (w := w)
  unfold Rsh.displayJobs; calm

theorem bCd (h : cs!"cd" ∉ L.D) (c : SimpleCommand) : Calm L w (Rsh.bCd w c) := by
  have := wordAt (L := L) (w := w)
  have hs : ∀ d p, Calm L w (Rsh.modS fun s => { s with cwd := d, trace := .chdir p :: s.trace }) := fun d p s ht =>
    ⟨ht.same rfl rfl, ⟨rfl, rfl, fun _ => rfl, fun h' => absurd h' h, fun _ _ _ => runOps_same rfl, fun _ _ _ => .of_eq rfl, [.chdir p], rfl, by
      intro e he; rw [List.mem_singleton.1 he]; exact .inr h⟩, trivial⟩
  clear h
  unfold Rsh.bCd
  calm

theorem saveHistory (h : ∀ p, Allowed L (.saveHistory p)) : Calm L w (Rsh.saveHistory w) := by
  have : ∀ p, Calm L w (Rsh.emit (.saveHistory p)) := fun p => emit (h p)
  unfold Rsh.saveHistory; calm

theorem bExit (h : cs!"exit" ∉ L.D) (c : SimpleCommand) : Calm L w (Rsh.bExit w c) := by
  have := saveHistory (L := L) (w := w) fun _ => .inr h
  have : ∀ n, Calm L w (exitM n : M Unit) := fun n s ht => ⟨ht, .refl s, .inl h⟩
  clear h
  unfold Rsh.bExit; calm

theorem bReturn (c : SimpleCommand) : Calm L w (Rsh.bReturn c) := by unfold Rsh.bReturn; calm

theorem bJobs : Calm L w Rsh.bJobs := by
  have := displayJobs (L := L) (w := w)
  unfold Rsh.bJobs; calm

theorem contAll (h : ¬ (cs!"fg" ∈ L.D ∧ cs!"bg" ∈ L.D)) (ps : List Process) : Calm L w (Rsh.contAll w ps) := by
  have : ∀ p, Calm L w (Rsh.emit (.kill p)) := fun p => emit (.inr h)
  clear h
  induction ps with
  | nil => exact pure _
  | cons p ps ih => unfold Rsh.contAll; calm

theorem bFgBg (h : ¬ (cs!"fg" ∈ L.D ∧ cs!"bg" ∈ L.D)) (c : SimpleCommand) : Calm L w (Rsh.bFgBg w c) := by
  have := wordAt (L := L) (w := w)
  have := contAll (w := w) h
  clear h
  have := modJc (L := L) (w := w)
  have := waitForJob (L := L) (w := w)
  have h1 : Calm L w (fgbgId c) := by unfold fgbgId; calm
  have h2 : ∀ id ty, Calm L w (findJob id ty) := by
    intro id ty
    cases ty <;> unfold findJob <;> calm
  have h3 : ∀ j b, Calm L w (Rsh.resume w j b) := by intro j b; unfold Rsh.resume; calm
  unfold Rsh.bFgBg; calm

theorem aliasStep {f : Sh → Sh} (h : cs!"unalias" ∉ L.D) (h0 : ∀ s k, (f s).aliases.get k ≠ none → s.aliases.get k ≠ none)
    (h1 : ∀ s, (f s).ctx = s.ctx ∧ (f s).env = s.env ∧ ((f s).forked, (f s).interactive) = (s.forked, s.interactive) ∧ (f s).cwd = s.cwd ∧
      (f s).trace = s.trace) : Calm L w (Rsh.modS f) := by
  intro s ht
  obtain ⟨e1, e2, e3, e4, e5⟩ := h1 s
  refine ⟨⟨fun id g b hb => ht.functions id g b (by
      have : (f s).ctx.heap id = s.ctx.heap id := by rw [e1]
      rw [← this]; exact hb), fun k hk => ?_⟩, ⟨e2, e3, fun h' => absurd h' h, fun _ => e4, fun _ _ _ => runOps_same e1, fun _ _ _ => .of_eq e1, [], e5, by simp⟩, trivial⟩
  exact Classical.byContradiction fun hn => h0 s k hn (ht.aliases k hk)

theorem bUnalias (h : cs!"unalias" ∉ L.D) (c : SimpleCommand) : Calm L w (Rsh.bUnalias c) := by
  have := wordAt (L := L) (w := w)
  have h1 : Calm L w (Rsh.modS fun s => { s with aliases := [] }) :=
    aliasStep h (fun s k hk => absurd rfl hk) fun _ => ⟨rfl, rfl, rfl, rfl, rfl⟩
  have h2 : ∀ x, Calm L w (Rsh.modS fun s => { s with aliases := s.aliases.erase x }) := fun x =>
    aliasStep h (fun s k hk => by
      rcases hg : (s.aliases.erase x).get k with _ | v
      · exact absurd hg hk
      · rw [erase_get hg]; simp) fun _ => ⟨rfl, rfl, rfl, rfl, rfl⟩
  clear h
  unfold Rsh.bUnalias; calm

theorem bAssign (h : [] ∉ L.D) (c : SimpleCommand) : Calm L w (Rsh.bAssign c) := by
  have := fun set => addVarContext (L := L) (w := w) set fun h' => absurd h' h
  clear h
  unfold Rsh.bAssign; calm

theorem bUnset (h : cs!"unset" ∉ L.D) (c : SimpleCommand) : Calm L w (Rsh.bUnset c) := by
  have := wordAt (L := L) (w := w)
  have h1 : ∀ x, Calm L w (Rsh.modS fun s => { s with ctx := s.ctx.removeVar x }) := fun x =>
    ctxStep (fun _ _ h' _ => absurd h' h) (fun _ _ h' _ => absurd h' h) fun s => ⟨removeVar_funs _ _, rfl, rfl, rfl, rfl, rfl⟩
  have h2 : ∀ x, Calm L w (Rsh.modS fun s => { s with ctx := s.ctx.removeFunction x }) := fun x =>
    ctxStep (fun _ _ h' _ => absurd h' h) (fun _ _ h' _ => absurd h' h) fun s => ⟨removeFunction_funs _ _, rfl, rfl, rfl, rfl, rfl⟩
  have h3 : ∀ x, Calm L w (Rsh.modS fun s => { s with ctx := s.ctx.removeContext x }) := fun x =>
    ctxStep (fun _ _ h' _ => absurd h' h) (fun _ _ h' _ => absurd h' h) fun s => ⟨fun _ _ _ h => h, rfl, rfl, rfl, rfl, rfl⟩
  clear h
  unfold Rsh.bUnset Rsh.unsetFlags; calm

theorem printReadonly (xs : List Str) : Calm L w (Rsh.printReadonly xs) := by
  induction xs with
  | nil => exact pure _
  | cons p a ih => unfold Rsh.printReadonly; calm

theorem printNames (xs : List Str) : Calm L w (Rsh.printNames xs) := by
  induction xs with
  | nil => exact pure _
  | cons p a ih => unfold Rsh.printNames; calm

theorem bReadonly (hr : cs!"readonly" ∉ L.D) (c : SimpleCommand) : Calm L w (Rsh.bReadonly c) := by
  have := wordAt (L := L) (w := w)
  have := printReadonly (L := L) (w := w)
  have := printNames (L := L) (w := w)
  have h1 : ∀ x, Calm L w (Rsh.readonlyFlags x) := by clear hr; intro x; unfold Rsh.readonlyFlags; calm
  have h2 : ∀ x p b, Calm L w (Rsh.readonlyFlags2 x p b) := by clear hr; intro x p b; unfold Rsh.readonlyFlags2; calm
  have h3 : ∀ fl ws p, Calm L w (Rsh.readonlyPrint fl ws p) := by
    clear hr
    intro fl ws p
    unfold Rsh.readonlyPrint; calm
  unfold Rsh.bReadonly
  split
  · clear hr; calm
  · next heq =>
    rw [← heq]
    refine bind (h1 _) fun p => ?_
    obtain ⟨fl, pos, print⟩ := p
    refine bind (wordAt _ _) fun y => ?_
    refine bind (h2 _ _ _) fun p => ?_
    obtain ⟨pos, print⟩ := p
    refine ite (h3 _ _ _) fun s ht => ?_
    rw [run_getS_bind]
    have hrest : CPost L w s ((match c.words[pos]? with
        | none => Rsh.throwE (cs!"readonly needs an argument")
        | some a =>
          if hasChar '=' a then do
            let m ← Rsh.unwrapM .unwrap (s.ctx.addVarReadonly a)
            setCtxMgr m
          else do
            let m ← Rsh.unwrapM .unwrap (s.ctx.setVarReadonly a)
            setCtxMgr m : M Unit) s) := by
      cases c.words[pos]? with
      | none => exact throwE _ s ht
      | some a =>
        show CPost L w s ((if hasChar '=' a then (Rsh.unwrapM .unwrap (s.ctx.addVarReadonly a) >>= fun m => setCtxMgr m)
          else (Rsh.unwrapM .unwrap (s.ctx.setVarReadonly a) >>= fun m => setCtxMgr m) : M Unit) s)
        by_cases he : hasChar '=' a = true
        · rw [if_pos he]; exact unwrapCtx ht (fun m h => addVarReadonly_funs h) (fun m h _ _ _ => addVarReadonly_same h) fun _ _ h => absurd h hr
        · rw [if_neg he]; exact unwrapCtx ht (fun m h => setVarReadonly_funs h) (fun m h _ _ _ => setVarReadonly_same h) fun _ _ h => absurd h hr
    cases fl with
    | function => exact printNames _ s ht
    | _ => exact hrest

theorem bExec (h : cs!"exec" ∉ L.D) (c : SimpleCommand) : Calm L w (Rsh.bExec w c) := by
  have hw := wordAt (L := L) (w := w)
  have := removeHandlers (L := L) (w := w)
  have := lookupCommandM (L := L) (w := w)
  have : ∀ i, Calm L w (Rsh.execM i : M Unit) := fun i s ht => ⟨ht, .refl s, h⟩
  clear h
  have h0 : ∀ a b e, Calm L w (Rsh.tempExecve w a b e) := by intro a b e; unfold Rsh.tempExecve; calm
  have h1 : ∀ ws, Calm L w (Rsh.execOpts1 ws) := by intro ws; unfold Rsh.execOpts1; calm
  have h2 : ∀ ws o, Calm L w (Rsh.execOpts2 ws o) := by intro ws o; unfold Rsh.execOpts2; calm
  unfold Rsh.bExec
  calm

theorem callBuiltin (hD : ∀ x ∈ indirect, x ∈ L.D) {c : SimpleCommand} (hc : c.name ∉ L.D) :
    Calm L w (Rsh.callBuiltin w rec c) := by
  have hp : Calm L w Rsh.bPwd := by unfold Rsh.bPwd; calm
  unfold Rsh.callBuiltin
  by_cases e : c.name = cs!"cd"
  · rw [if_pos e]; exact bCd (e ▸ hc) c
  rw [if_neg e]
  by_cases e : c.name = cs!"exit"
  · rw [if_pos e]; exact bExit (e ▸ hc) c
  rw [if_neg e]
  refine ite (bReturn c) (ite bJobs ?_)
  by_cases e : c.name = cs!"fg" ∨ c.name = cs!"bg"
  · rw [if_pos e]
    refine bFgBg (fun h => ?_) c
    rcases e with e | e
    · exact hc (e ▸ h.1)
    · exact hc (e ▸ h.2)
  rw [if_neg e]
  by_cases e : c.name = cs!"alias"
  · exact absurd (hD c.name (by rw [e]; decide)) hc
  rw [if_neg e]
  by_cases e : c.name = cs!"unalias"
  · rw [if_pos e]; exact bUnalias (e ▸ hc) c
  rw [if_neg e]
  by_cases e : c.name = cs!"export"
  · exact absurd (hD c.name (by rw [e]; decide)) hc
  rw [if_neg e]
  by_cases e : c.name = cs!"eval"
  · exact absurd (hD c.name (by rw [e]; decide)) hc
  rw [if_neg e]
  by_cases e : c.name = cs!"unset"
  · rw [if_pos e]; exact bUnset (e ▸ hc) c
  rw [if_neg e]
  refine ite hp ?_
  by_cases e : c.name = cs!"readonly"
  · rw [if_pos e]; exact bReadonly (e ▸ hc) c
  rw [if_neg e]
  by_cases e : c.name = cs!"exec"
  · rw [if_pos e]; exact bExec (e ▸ hc) c
  rw [if_neg e]
  by_cases e : c.name = cs!"." ∨ c.name = cs!"source"
  · refine absurd (hD c.name ?_) hc
    rcases e with e | e <;> rw [e] <;> decide
  rw [if_neg e]
  by_cases e : c.name = []
  · rw [if_pos e]; exact bAssign (e ▸ hc) c
  rw [if_neg e]
  exact throwE _

/-! ## Evaluation -/

/-- No builtin's name is changed by variables or quotes. -/
theorem builtin_plain : ∀ x, isBuiltin x = true → x.head? ≠ some '$' ∧ startsWith ['\''] x = false ∧
    startsWith ['"'] x = false ∧ (x = [] ∨ splitQts x = some [x]) := by
  have h : ∀ x ∈ [cs!"cd", cs!"exit", cs!"return", cs!"jobs", cs!"fg", cs!"bg", cs!"alias", cs!"unalias",
    cs!"export", cs!"eval", cs!"unset", cs!"pwd", cs!"readonly", cs!"exec", cs!".", cs!"source",
    []], x.head? ≠ some '$' ∧ startsWith ['\''] x = false ∧ startsWith ['"'] x = false ∧
      (x = [] ∨ splitQts x = some [x]) := by decide +kernel
  intro x hx
  exact h x (by simpa [isBuiltin] using hx)

/-- A builtin keeps its name if it has no alias. -/
theorem expand_name {c c' : SimpleCommand} {s s' : Sh} (hb : isBuiltin c.name = true) (ha : s.aliases.get c.name = none)
    (h : Rsh.expandCommand w rec c s = (.ok c', s')) : c'.name = c.name := by
  obtain ⟨h1, h2, h3, h4⟩ := builtin_plain _ hb
  unfold Rsh.expandCommand at h
  have e1 : Rsh.aliasLookup c s = (.ok c, s) := by
    unfold Rsh.aliasLookup lookupAlias
    rw [run_getS_bind, ha]
    rfl
  rw [run_bind_ok e1] at h
  rw [run_bind] at h
  rcases hv : Rsh.expandVars c s with ⟨o, s1⟩
  rw [hv] at h
  cases o with
  | ok c2 =>
    have hn : c2.name = c.name := by
      unfold Rsh.expandVars at hv
      rw [run_getS_bind] at hv
      rcases he : expandVarsIn s.ctx c with _ | c3
      · rw [he] at hv; cases hv
      · rw [he] at hv
        cases hv
        unfold expandVarsIn at he
        dsimp only at he
        obtain ⟨pre, _, rfl⟩ := Option.map_eq_some_iff.1 he
        show expandWord s.ctx c.name = c.name
        unfold expandWord
        split
        · next e => rw [e] at h1; exact absurd rfl h1
        · rfl
    simp only at h
    rw [← hn] at h2 h3 h4 ⊢
    unfold Rsh.evalWords at h
    by_cases e : c2.name = []
    · rw [if_pos e] at h; cases h; rfl
    rw [if_neg e, h2] at h
    have h5 := h4.resolve_left e
    simp only [Bool.false_eq_true, if_false] at h
    rw [run_pure_bind, h5, unwrapM_some, run_pure_bind] at h
    have e6 : Rsh.evalNameWords w rec [c2.name] s1 = (.ok [c2.name], s1) := by
      unfold Rsh.evalNameWords
      rw [h3]
      rfl
    rw [run_bind_ok e6] at h
    obtain ⟨pre, name, sfx⟩ := c2
    cases sfx with
    | none => cases h; rfl
    | some sf =>
      dsimp only at h
      split at h
      · cases h; rfl
      · rw [run_bind] at h
        generalize Rsh.evalSuffixWords w rec sf.word s1 = r at h
        obtain ⟨o, s2⟩ := r
        cases o with
        | ok ws => cases h; rfl
        | _ => cases h
  | _ => cases h

variable (hD : ∀ x ∈ indirect, x ∈ L.D) (hrec : ∀ l, (∀ x ∈ listNames l, x ∉ L.D) → Calm L w (rec l))

include hD in
theorem evalSimple {c : SimpleCommand} (hc : c.name ∉ L.D) : Calm L w (Rsh.evalSimple w rec c) := by
  unfold Rsh.evalSimple
  by_cases hb : isBuiltin c.name = true
  · rw [if_pos hb]
    refine bind (fun s ht => ?_) fun _ => pure _
    unfold Rsh.evalBuiltin
    refine bindAt (expandCommand c s ht) fun c' s1 h h1 => ?_
    exact callBuiltin hD (by rw [expand_name hb (ht.aliases _ hb) h]; exact hc) s1 h1
  · rw [if_neg hb]
    have := expandCommand (L := L) (w := w) (rec := rec)
    calm

include hD in
theorem evalCommand {c : Command} (hc : ∀ x ∈ cmdNames c, x ∉ L.D) : Calm L w (Rsh.evalCommand w rec c) := by
  cases c with
  | simple c => exact evalSimple hD (hc _ (by simp [cmdNames]))
  | compound c r => exact throwE _
  | funcDef f b => exact bind (addFunctionM (hc _ (by simp [cmdNames])) fun x hx => hc x (by simp [cmdNames, hx])) fun _ => pure _

include hD in
theorem evalCommands {cs : List Command} (hc : ∀ x ∈ cmdsNames cs, x ∉ L.D) : Calm L w (Rsh.evalCommands w rec cs) := by
  induction cs with
  | nil => exact pure _
  | cons c cs ih =>
    simp only [cmdsNames, List.mem_append] at hc
    have h1 := evalCommand (w := w) (rec := rec) hD fun x hx => hc x (.inl hx)
    have h2 := ih fun x hx => hc x (.inr hx)
    clear hc ih hD
    unfold Rsh.evalCommands; calm

theorem setParams (i : Nat) (as : List Str) : Calm L w (Rsh.setParams i as) := by
  induction as generalizing i with
  | nil => exact pure _
  | cons p a ih =>
    have := addVarContext (L := L) (w := w) (natStr i ++ '=' :: p) fun _ => by
      show (CtxMgr.setName _).head?.any isDigit10 = true
      rw [setName_eq _ _ (natStr_not_mem (by decide))]
      rcases h : natStr i with _ | ⟨d, r⟩
      · exact absurd h (natStr_ne_nil i)
      · exact natStr_digit (n := i) (by rw [h]; exact List.mem_cons_self)
    unfold Rsh.setParams; calm

theorem getFunction_heap {m : CtxMgr} {f : Str} {b : FunctionBody} (h : m.getFunction f = some b) :
    ∃ id g, (m.heap id).getFunction g = some b := by
  unfold CtxMgr.getFunction at h
  split at h
  · obtain ⟨id, _, h⟩ := Option.bind_eq_some_iff.1 h
    exact ⟨id, _, h⟩
  · obtain ⟨id, _, h⟩ := List.exists_of_findSome?_eq_some h
    exact ⟨id, _, h⟩

theorem addVarContext_noErr (x : Str) : NoErr (Rsh.addVarContext x) := by
  unfold Rsh.addVarContext
  exact NoErr.getS.bind fun _ => (NoErr.unwrapM _ _).bind fun _ => NoErr.modS _

theorem setParams_noErr (i : Nat) (as : List Str) : NoErr (Rsh.setParams i as) := by
  induction as generalizing i with
  | nil => exact NoErr.pure _
  | cons a as ih =>
    unfold Rsh.setParams
    exact NoErr.ite (NoErr.pure _) ((addVarContext_noErr _).bind fun _ => ih _)

theorem tryE_noErr (m : M α) : NoErr (Rsh.tryE m) := by
  intro s e s' h
  rw [run_tryE] at h
  generalize m s = r at h
  obtain ⟨o, s1⟩ := r
  cases o <;> cases h

theorem popContext_noErr : NoErr Rsh.popContext := by
  unfold Rsh.popContext
  exact NoErr.getS.bind fun _ => (NoErr.unwrapM _ _).bind fun _ => (NoErr.modS _).bind fun _ => NoErr.pure _

theorem isFunction_get {m : CtxMgr} {f : Str} (h : m.isFunction f = true) : ∃ b, m.getFunction f = some b := by
  unfold CtxMgr.isFunction at h
  unfold CtxMgr.getFunction
  split at h
  · next ns v hs =>
    split at h
    · next id hb =>
      simp only [hb]
      exact Option.isSome_iff_exists.1 h
    · cases h
  · next hs =>
    apply Option.isSome_iff_exists.1
    rw [List.findSome?_isSome_iff]
    obtain ⟨id, hi, h⟩ := List.any_eq_true.1 h
    exact ⟨id, hi, h⟩

include hrec in
theorem callFunction {c : SimpleCommand} {s : Sh} (ht : Confined L.D s) (hf : s.ctx.isFunction c.name = true) :
    CPost L w s (Rsh.callFunction rec c s) := by
  obtain ⟨b, hb⟩ := isFunction_get hf
  obtain ⟨id, g, hg⟩ := getFunction_heap hb
  have hbody := ht.functions id g b hg
  have h1 : Calm L w (evalCompound rec b.cc) := by
    obtain ⟨cc, r⟩ := b
    cases cc with
    | braceGroup l =>
      have := hrec l (by simpa [bodyNames, groupNames] using hbody)
      show Calm L w (evalCompound rec (.braceGroup l))
      unfold evalCompound; calm
    | unsupported => exact panicM _
  have hn1 : NoErr (evalCompound rec b.cc) := by
    obtain ⟨cc, r⟩ := b
    cases cc with
    | braceGroup l =>
      show NoErr (evalCompound rec (.braceGroup l))
      unfold evalCompound
      exact (tryE_noErr _).bind fun _ => NoErr.pure _
    | unsupported => exact NoErr.panicM _
  have h2 := addVarContext (L := L) (w := w) (cs!"0=" ++ c.name) fun _ => by
    show (CtxMgr.setName ((cs!"0") ++ '=' :: c.name)).head?.any isDigit10 = true
    rw [setName_eq _ _ (by decide)]
    decide
  have h3 := setParams (L := L) (w := w)
  have h4 := popContext (L := L) (w := w)
  have h0 := pushContextNew (L := L) (w := w)
  unfold Rsh.callFunction
  have e : Rsh.evalFunction rec c s = ((do
    Rsh.pushContextNew
    Rsh.addVarContext (cs!"0=" ++ c.name)
    Rsh.setParams 1 c.words
    Rsh.evalCompound rec b.cc
    let _ ← Rsh.popContext
    Pure.pure () : M Unit) s) := by
    unfold Rsh.evalFunction
    rw [run_getS_bind, hb]
  have hm : CPost L w s (Rsh.evalFunction rec c s) := by
    rw [e]
    refine (?_ : Calm L w (α := Unit) _) s ht
    calm
  have hn : ∀ e s', Rsh.evalFunction rec c s ≠ (.err e, s') := by
    rw [e]
    have hp : NoErr Rsh.pushContextNew := NoErr.modS _
    exact (hp.bind fun _ => (addVarContext_noErr _).bind fun _ => (setParams_noErr _ _).bind fun _ =>
      hn1.bind fun _ => popContext_noErr.bind fun _ => NoErr.pure _) s
  rw [run_bind, run_tryE]
  rcases hr : Rsh.evalFunction rec c s with ⟨o, s1⟩
  rw [hr] at hm hn
  cases o with
  | ok a => exact ⟨hm.tame, hm.kept, trivial⟩
  | err a => exact absurd rfl (hn a s1)
  | _ => exact ⟨hm.tame, hm.kept, hm.out⟩

include hrec in
theorem runFunctions (ps : List (Process × SimpleCommand)) : Calm L w (Rsh.runFunctions rec ps) := by
  induction ps with
  | nil => exact pure _
  | cons p ps ih =>
    obtain ⟨p, c⟩ := p
    intro s ht
    unfold Rsh.runFunctions
    rw [run_getS_bind]
    by_cases hf : s.ctx.isFunction c.name = true
    · rw [if_pos hf]
      refine bindAt (callFunction hrec ht hf) fun _ s1 _ h1 => ?_
      rw [run_getS_bind]
      by_cases hk : s1.forked = true
      · rw [if_pos hk]; exact ⟨h1, .refl _, .inr (.inl hk)⟩
      · rw [if_neg hk]
        exact (bind (modS (f := fun s => { s with exitStatus := 0 }) fun _ => ⟨rfl, rfl, rfl, rfl, rfl, rfl⟩) fun _ => ih) s1 h1
    · rw [if_neg hf]
      exact (bind ih fun _ => pure _) s ht

theorem forkLoop (b : Bool) (id total : Nat) (ps : List (Process × SimpleCommand)) (count : Nat) (pip : Int × Int)
    (prev : Int) : Calm L w (Rsh.forkLoop w rec b id total ps count pip prev) := by
  have := pipeM (L := L) (w := w)
  have := closeU (L := L) (w := w)
  have := closeM (L := L) (w := w)
  have := modJc (L := L) (w := w)
  induction ps generalizing count pip prev with
  | nil => exact pure _
  | cons q ps ih => unfold Rsh.forkLoop; calm

theorem afterFork (b : Bool) (id count : Nat) : Calm L w (Rsh.afterFork w b id count) := by
  have := deleteJobM (L := L) (w := w)
  have := waitForJob (L := L) (w := w)
  unfold Rsh.afterFork; calm

include hD hrec in
theorem evalPipeline {pl : Pipeline} (hp : ∀ x ∈ pipeNames pl, x ∉ L.D) : Calm L w (Rsh.evalPipeline w rec pl) := by
  have h1 := afterFork (L := L) (w := w)
  have h2 := forkLoop (L := L) (w := w) (rec := rec)
  have h3 := runFunctions hrec
  have h4 := createJobM (L := L) (w := w)
  have h5 : Calm L w (Rsh.evalCommands w rec pl.seq) := by
    obtain ⟨n, cs, b⟩ := pl
    exact evalCommands hD fun x hx => hp x (by unfold pipeNames; exact hx)
  clear hp hrec hD
  unfold Rsh.evalPipeline; calm

include hD hrec in
theorem evalAndOr {a : AndOr} (ha : ∀ x ∈ chainNames a, x ∉ L.D) : Calm L w (Rsh.evalAndOr w rec a) := by
  fun_induction Rsh.evalAndOr w rec a with
  | case1 c p => exact evalPipeline hD hrec (by simpa [chainNames] using ha)
  | case2 l c p ih =>
    simp only [chainNames, List.mem_append] at ha
    have h1 := evalPipeline hD hrec fun x hx => ha x (.inr hx)
    have h2 := ih fun x hx => ha x (.inl hx)
    clear ha ih hD hrec
    calm

include hD hrec in
theorem evalListFrom (st : Int) {l : List AndOr} (hl : ∀ x ∈ listNames l, x ∉ L.D) :
    Calm L w (Rsh.evalListFrom w rec st l) := by
  induction l generalizing st with
  | nil => exact pure _
  | cons a as ih =>
    simp only [listNames, List.mem_append] at hl
    have h1 := evalAndOr hD hrec fun x hx => hl x (.inl hx)
    have h2 := fun st => ih st fun x hx => hl x (.inr hx)
    clear hl ih hD hrec
    unfold Rsh.evalListFrom; calm

include hD in
theorem evalFuel (n : Nat) {l : List AndOr} (hl : ∀ x ∈ listNames l, x ∉ L.D) : Calm L w (Rsh.evalFuel w n l) := by
  induction n generalizing l with
  | zero => exact deepM
  | succ n ih => exact evalListFrom hD (fun l h => ih h) (-1) hl

include hD in
theorem evalTop (n : Nat) {t : Str} {cc : CompleteCommand} (hp : parse t = some cc) (ht : Without L.D t) :
    Calm L w (Rsh.evalTop w n cc) := by
  unfold Rsh.evalTop Rsh.evalCC
  split
  · next l =>
    refine evalFuel hD n ?_
    unfold Without commandNames at ht
    rw [hp] at ht
    exact ht
  · exact pure _

include hD in
theorem interactiveLine (n : Nat) {t : Str} (ht : Without L.D t) : Calm L w (Rsh.interactiveLine w n t) := by
  unfold Rsh.interactiveLine
  refine ite (pure _) ?_
  split
  · exact printlnM _
  · next cc h =>
    have := evalTop (w := w) hD n h ht
    clear hD ht
    calm

theorem waitForJobSigchld (id : Nat) (st : WStatus) : Calm L w (Rsh.waitForJobSigchld w id st) := by
  have := waitForJob (L := L) (w := w)
  have := deleteJobM (L := L) (w := w)
  have := modJc (L := L) (w := w)
  unfold Rsh.waitForJobSigchld; calm

theorem deliver (he : L.ends) (g : Nat) : Calm L w (Rsh.deliver w g) := by
  have h1 := waitForJobSigchld (L := L) (w := w)
  have h0 := modJc (L := L) (w := w)
  have h2 : ∀ pid st msg, Calm L w (sigChldWith.go w pid st msg) := by
    intro pid st msg
    unfold sigChldWith.go; calm
  have h3 : ∀ r, Calm L w (sigChldWith w r) := by intro r; unfold sigChldWith; calm
  have h4 := waitpidM (L := L) (w := w)
  have h5 := onSigOther (L := L) (w := w)
  have h6 : ∀ n, Calm L w (exitM n : M Unit) := fun n s ht => ⟨ht, .refl s, .inr (.inr (.inr he))⟩
  unfold Rsh.deliver Rsh.onSigchld; calm

theorem setSignal (g : Nat) : Calm L w (Rsh.setSignal g) := by
  unfold Rsh.setSignal
  calm

/-! ## Whole sessions -/

include hD in
theorem readStartup (n : Nat) {p : Str} (hp : L.event (.readFile p))
    (hf : ∀ tr t, w.readFile tr p = .text t → Without L.D t) : Calm L w (Rsh.readStartup w n p) := by
  intro s ht
  unfold Rsh.readStartup Rsh.readFileM
  have e : ((do
      let s ← Rsh.getS
      Rsh.emit (.readFile p)
      Pure.pure (w.readFile s.trace p) : M FileRead)) s =
      (.ok (w.readFile s.trace p), { s with trace := .readFile p :: s.trace }) := rfl
  have h1 : CPost L w s ((.ok (w.readFile s.trace p), { s with trace := .readFile p :: s.trace }) : Out FileRead × Sh) :=
    ⟨ht.same rfl rfl, ⟨rfl, rfl, fun _ => rfl, fun _ => rfl, fun _ _ _ => runOps_same rfl, fun _ _ _ => .of_eq rfl, [.readFile p], rfl, by
      intro e he; rw [List.mem_singleton.1 he]; exact .inl hp⟩, trivial⟩
  refine bindAt (m := do
      let s ← Rsh.getS
      Rsh.emit (.readFile p)
      Pure.pure (w.readFile s.trace p)) (by rw [e]; exact h1) fun r s1 hr h1 => ?_
  rw [e] at hr
  cases hr
  cases hr : w.readFile s.trace p with
  | missing => exact pure _ _ h1
  | notUtf8 => exact printlnM _ _ h1
  | text t =>
    dsimp only
    cases hc : parse t with
    | none => exact printlnM _ _ h1
    | some cc =>
      have h2 := evalTop (w := w) hD n hc (hf _ _ hr)
      refine (?_ : Calm L w (α := Unit) _) _ h1
      clear hf hD h1 ht e hr hc
      calm

include hD in
theorem interactiveLoop {ins : List SessionIn} (he : ∀ g, .sig g ∈ ins → L.ends) (hs : ∀ p, Allowed L (.saveHistory p)) (n : Nat)
    (hi : ∀ t, .line t ∈ ins → Without L.D t) : Calm L w (Rsh.interactiveLoop w n ins) := by
  have h1 := expandVar (L := L) (w := w)
  have h2 := saveHistory (w := w) hs
  induction ins with
  | nil => exact h2
  | cons i ins ih =>
    have h3 : ∀ g, i = .sig g → Calm L w (Rsh.deliver w g) := fun g e =>
      deliver (he g (e ▸ List.mem_cons_self)) g
    have h4 := ih (fun g hg => he g (List.mem_cons_of_mem _ hg)) fun t ht => hi t (List.mem_cons_of_mem _ ht)
    have h5 : ∀ t, i = .line t → Calm L w (Rsh.interactiveLine w n t) := fun t e =>
      interactiveLine hD n (hi t (e ▸ List.mem_cons_self))
    clear hi ih hD hs he
    cases i with
    | line t =>
      have h6 := h5 t rfl
      clear h5 h3
      unfold Rsh.interactiveLoop; calm
    | sig g =>
      have h6 := h3 g rfl
      clear h5 h3
      unfold Rsh.interactiveLoop; calm
    | _ =>
      clear h5 h3
      unfold Rsh.interactiveLoop; calm

include hD in
theorem mainM {ins : List SessionIn} (ho : L.opens) (he : ∀ g, .sig g ∈ ins → L.ends) (hs : ∀ p, Allowed L (.saveHistory p))
    (n k : Nat) (name : Str)
    (hi : ∀ t, .line t ∈ ins → Without L.D t)
    (hf : ∀ p, p = cs!"~/.rshrc" ∨ p = cs!"~/.profile" → L.event (.readFile p) ∧
      ∀ tr t, w.readFile tr p = .text t → Without L.D t) {s : Sh} (ht : Confined L.D s) (hint : s.interactive = true) :
    CPost L w s (Rsh.mainM w n k [name] ins s) := by
  have h1 := readStartup (w := w) hD n (hf _ (.inl rfl)).1 (hf _ (.inl rfl)).2
  have h2 := readStartup (w := w) hD n (hf _ (.inr rfl)).1 (hf _ (.inr rfl)).2
  have h3 := interactiveLoop (w := w) hD he hs n hi
  have h4 := setSignal (L := L) (w := w)
  have h5 : Calm L w Rsh.setArg0 := bind getS fun _ => addVarAt ho _ _
  unfold Rsh.mainM Rsh.parseArgs
  simp only [List.length_singleton, if_true]
  rw [run_pure_bind]
  have ha := pushContextNew (L := L) (w := w) s ht
  refine bindAt ha fun _ s1 r1 t1 => ?_
  have hb := h5 s1 t1
  refine bindAt hb fun _ s2 r2 t2 => ?_
  have hc := h1 s2 t2
  refine bindAt hc fun _ s3 r3 t3 => ?_
  have hd := h2 s3 t3
  refine bindAt hd fun _ s4 r4 t4 => ?_
  rw [r1] at ha
  rw [r2] at hb
  rw [r3] at hc
  rw [r4] at hd
  have e : s4.interactive = true := by
    rw [hd.kept.interactive, hc.kept.interactive, hb.kept.interactive, ha.kept.interactive]; exact hint
  rw [run_getS_bind]
  dsimp only
  rw [if_pos e]
  refine (?_ : Calm L w (α := Unit) _) s4 t4
  clear hD hi hf hs he
  calm

end Calm

end Rsh
