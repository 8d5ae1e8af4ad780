import Verif.Proofs.Only
import Verif.Props.Room

/-!
# C160: only programs named in the input are run
-/

namespace Rsh

open Spec

namespace Only

variable {P : List Str} {w : World} {rec : List AndOr → M Int}

theorem callOnly_level {c : SimpleCommand} (h : callOnly P c = true) : callLevel (fun _ => 0) 0 c = true ∧
    c.name ≠ cs!"exec" ∧ (isBuiltin c.name = true ∨ c.name ∈ P) := by
  simp only [callOnly, Bool.and_eq_true, bne_iff_ne, Bool.or_eq_true, List.contains_eq_mem, decide_eq_true_eq] at h
  obtain ⟨⟨⟨h1, h2⟩, h3⟩, h4⟩ := h
  refine ⟨?_, h2, h4.imp (fun h => decide_eq_true h) fun h => h.2⟩
  simp only [callLevel, Bool.and_eq_true, Bool.or_eq_true, List.contains_eq_mem, decide_eq_true_eq]
  exact ⟨⟨h1, h3⟩, h4.imp id fun h => ⟨h.1, Nat.le_refl 0⟩⟩

/-- A program or function with a name in `P`. -/
structure Callee (P : List Str) (q : Process × SimpleCommand) : Prop where
  unqualified : ':' ∉ q.2.name
  known : q.2.name ∈ P
  argv0 : q.1.argv0 = q.2.name
  argv : q.1.argv.head? = some q.2.name

theorem evalSimple {c : SimpleCommand} (hc : callOnly P c = true) {base : List Event} {s : Sh} (hs : Tamed P base s) :
    AllNamed P base (Rsh.evalSimple w rec c s) ∧
      ∀ q s1, Rsh.evalSimple w rec c s = (.ok (some q), s1) → Callee P q := by
  obtain ⟨hc, hx, hP⟩ := callOnly_level hc
  obtain ⟨h1, h2, h3⟩ := Roomy.callLevel_iff hc
  obtain ⟨o, ho, _, he, hn⟩ := Roomy.expandCommand (w := w) (rec := rec) (Roomy.stable_of hc) h2 hs.funs.aliases
  unfold Rsh.evalSimple
  by_cases hb : isBuiltin c.name = true
  · rw [if_pos hb]
    refine ⟨bindAt ?_ fun _ s1 _ h => pure _ s1 h, fun q s1 h => ?_⟩
    · unfold Rsh.evalBuiltin
      refine bindAt (by rw [ho]; exact ⟨fun img hi => absurd hi (he img), hs⟩) fun c' s1 h hs1 => ?_
      rw [ho] at h
      cases h
      exact callBuiltin (by rw [hn _ rfl]; exact h1) (by rw [hn _ rfl]; exact hx) _ hs1
    · obtain ⟨_, _, _, h⟩ := bind_ok_iff.1 h
      cases h
  · rw [if_neg hb]
    have h4 := h3.resolve_left hb
    refine ⟨bindAt (by rw [ho]; exact ⟨fun img hi => absurd hi (he img), hs⟩) fun c' s1 _ hs1 =>
      bind (unwrapM _ _) (fun _ => pure _) s1 hs1, fun q s1 h => ?_⟩
    obtain ⟨c', s2, h5, h6⟩ := bind_ok_iff.1 h
    rw [ho] at h5
    cases h5
    obtain ⟨av, s3, h8, h7⟩ := bind_ok_iff.1 h6
    cases h7
    refine ⟨by rw [hn _ rfl]; exact h4.1.2, by rw [hn _ rfl]; exact hP.resolve_left hb, rfl, ?_⟩
    cases ha : argvOf c' with
    | none => rw [ha] at h8; cases h8
    | some l =>
      rw [ha, unwrapM_some] at h8
      cases h8
      simp only [argvOf] at ha
      split at ha <;>
      · split at ha
        · exact nomatch ha
        · rw [← Option.some.inj ha]; rfl

theorem evalCommand {c : Command} (hc : cmdOnly P c = true) {base : List Event} {s : Sh} (hs : Tamed P base s) :
    AllNamed P base (Rsh.evalCommand w rec c s) ∧
      ∀ q s1, Rsh.evalCommand w rec c s = (.ok (some q), s1) → Callee P q := by
  cases c with
  | simple c => exact evalSimple (by simpa [cmdOnly] using hc) hs
  | compound c r =>
    unfold Rsh.evalCommand
    exact ⟨throwE _ s hs, fun q s1 h => by cases h⟩
  | funcDef f b =>
    simp only [cmdOnly] at hc
    unfold Rsh.evalCommand
    refine ⟨bind (addFunctionM hc) (fun _ => pure _) s hs, fun q s1 h => ?_⟩
    obtain ⟨_, _, _, h⟩ := bind_ok_iff.1 h
    cases h

theorem evalCommands {cs : List Command} (hc : cmdsOnly P cs = true) {base : List Event} {s : Sh} (hs : Tamed P base s) :
    AllNamed P base (Rsh.evalCommands w rec cs s) ∧
      ∀ ps s1, Rsh.evalCommands w rec cs s = (.ok ps, s1) → ∀ q ∈ ps, Callee P q := by
  induction cs generalizing s with
  | nil => exact ⟨⟨nofun, hs⟩, fun ps s1 h => by cases h; simp⟩
  | cons c cs ih =>
    simp only [cmdsOnly, Bool.and_eq_true] at hc
    obtain ⟨h1, h2⟩ := evalCommand (w := w) (rec := rec) hc.1 hs
    unfold Rsh.evalCommands
    refine ⟨bindAt h1 fun o s1 h hs1 => ?_, fun ps s1 h => ?_⟩
    · cases o with
      | none => exact pure _ s1 hs1
      | some q => exact bindAt (ih hc.2 hs1).1 fun _ s2 _ hs2 => pure _ s2 hs2
    · obtain ⟨o, s2, h3, h4⟩ := bind_ok_iff.1 h
      cases o with
      | none => cases h4; simp
      | some q =>
        obtain ⟨rest, s3, h5, h6⟩ := bind_ok_iff.1 h4
        cases h6
        rw [h3] at h1
        intro q' hq
        rcases List.mem_cons.1 hq with rfl | hq
        · exact h2 _ _ h3
        · exact (ih hc.2 h1.2).2 _ _ h5 q' hq

theorem setParams (i : Nat) (as : List Str) : Only P (Rsh.setParams i as) := by
  have := addVarContext (P := P)
  induction as generalizing i with
  | nil => exact pure _
  | cons p a ih => unfold Rsh.setParams; named

variable (hrec : ∀ l, listOnly P l = true → Only P (rec l))

include hrec in
theorem callFunction {p : Process} {c : SimpleCommand} (hc : Callee P (p, c)) : Only P (Rsh.callFunction rec c) := by
  have h0 : Only P (Rsh.evalFunction rec c) := by
    intro base s hs
    unfold Rsh.evalFunction
    rw [run_getS_bind]
    cases hf : s.ctx.getFunction c.name with
    | none => exact throwE _ s hs
    | some b =>
      have hu : Unqualified c.name := fun a b e => hc.1 (by rw [e]; simp)
      rw [CtxMgr.getFunction_unqualified _ hu] at hf
      obtain ⟨id, _, hf⟩ := List.exists_of_findSome?_eq_some hf
      have hb := hs.funs.functions id c.name b hf
      have h1 : Only P (evalCompound rec b.cc) := by
        obtain ⟨cc, io⟩ := b
        cases cc with
        | braceGroup l =>
          have := hrec l (by simpa [bodyOnly, groupOnly] using hb)
          show Only P (evalCompound rec (.braceGroup l))
          unfold evalCompound; named
        | unsupported => exact panicM _
      have h2 := addVarContext (P := P)
      have h3 := setParams (P := P)
      have h4 := popContext (P := P)
      have h5 := pushContextNew (P := P)
      refine (?_ : Only P (α := Unit) _) s hs
      clear hrec
      named
  clear hrec
  unfold Rsh.callFunction; named

include hrec in
theorem runFunctions {ps : List (Process × SimpleCommand)} (hp : ∀ q ∈ ps, Callee P q) :
    Only P (Rsh.runFunctions rec ps) := by
  induction ps with
  | nil => exact pure _
  | cons q ps ih =>
    obtain ⟨p, c⟩ := q
    have h1 := callFunction hrec (hp _ List.mem_cons_self)
    have h2 := ih fun q hq => hp q (List.mem_cons_of_mem _ hq)
    clear hrec hp ih
    unfold Rsh.runFunctions; named

theorem dup2U (a b : Int) : Only P (Rsh.dup2U a b) := by
  refine stateOnly fun s => ?_
  unfold Rsh.dup2U
  split
  · exact ⟨rfl, rfl, .inl rfl, nofun⟩
  · split <;> exact ⟨rfl, rfl, .inl rfl, nofun⟩

theorem openU (ty : RedirectType) (f : Str) : Only P (Rsh.openU w ty f) := by
  refine stateOnly fun s => ?_
  unfold Rsh.openU
  split
  · exact ⟨rfl, rfl, .inr ⟨_, rfl, rfl⟩, nofun⟩
  · exact ⟨rfl, rfl, .inl rfl, nofun⟩

theorem evalRedirects (rs : List IoRedirect) : Only P (Rsh.evalRedirects w rs) := by
  have := dup2U (P := P)
  have := openU (P := P) (w := w)
  induction rs with
  | nil => exact pure _
  | cons r rs ih => unfold Rsh.evalRedirects evalRedirect1; named

theorem evalAssignments (l : List Str) : Only P (Rsh.evalAssignments l) := by
  have : ∀ a b, Only P (setEnv a b) := fun a b => by
    refine stateOnly fun s => ?_
    unfold setEnv
    split <;> exact ⟨rfl, rfl, .inl rfl, nofun⟩
  induction l with
  | nil => exact pure _
  | cons a l ih => unfold Rsh.evalAssignments; named

omit hrec in
theorem evalPrefixSuffix (c : SimpleCommand) : Only P (Rsh.evalPrefixSuffix w c) := by
  have := evalRedirects (P := P) (w := w)
  have := evalAssignments (P := P)
  unfold Rsh.evalPrefixSuffix; named

omit hrec in
theorem pipelineChild {p : Process} {c : SimpleCommand} (h1 : Only P (Rsh.callFunction rec c))
    (h4 : ∀ e, Only P (Rsh.tempExecve w p.argv0 p.argv e)) (b : Bool) (id : Nat) (pip : Int × Int) (prev : Int) :
    Only P (Rsh.pipelineChild w rec b id pip prev p c) := by
  have h5 := closeU (P := P)
  have h6 := dup2U (P := P)
  have h7 := evalPrefixSuffix (P := P) (w := w)
  have h8 : Only P (do
      Rsh.evalPrefixSuffix w c
      let s ← Rsh.getS
      if s.ctx.isFunction c.name then do
        Rsh.callFunction rec c
        Rsh.exitM 0
      else do
        match ← Rsh.tryE (do
            let s ← Rsh.getS
            Rsh.tempExecve w p.argv0 p.argv s.env) with
        | .ok _ => Rsh.panicM .explicit
        | .error _ => do
          Rsh.eprintlnM (p.cmd ++ cs!": Command not found\n")
          Rsh.exitM 1 : M Unit) := by
    refine bind (h7 c) fun _ => bind getS fun s => ite (bind h1 fun _ => exitM _) ?_
    refine bind (tryE (bind getS fun s => h4 _)) fun r => ?_
    cases r with
    | ok _ => exact panicM _
    | error _ => exact bind (eprintlnM _) fun _ => exitM _
  unfold Rsh.pipelineChild
  refine bind (modS fun _ => ⟨rfl, rfl, rfl⟩) fun _ => ?_
  dsimp only
  generalize (do
      Rsh.evalPrefixSuffix w c
      let s ← Rsh.getS
      if s.ctx.isFunction c.name then do
        Rsh.callFunction rec c
        Rsh.exitM 0
      else do
        match ← Rsh.tryE (do
            let s ← Rsh.getS
            Rsh.tempExecve w p.argv0 p.argv s.env) with
        | .ok _ => Rsh.panicM .explicit
        | .error _ => do
          Rsh.eprintlnM (p.cmd ++ cs!": Command not found\n")
          Rsh.exitM 1 : M Unit) = m at h8 ⊢
  clear h1 h4 h7
  named

include hrec in
theorem forkLoop {ps : List (Process × SimpleCommand)} (hp : ∀ q ∈ ps, Callee P q) (b : Bool) (id total count : Nat)
    (pip : Int × Int) (prev : Int) : Only P (Rsh.forkLoop w rec b id total ps count pip prev) := by
  have := pipeM (P := P) (w := w)
  have := closeU (P := P)
  have := closeM (P := P)
  have := modJc (P := P)
  have := dup2U (P := P)
  have := evalRedirects (P := P) (w := w)
  have := evalAssignments (P := P)
  induction ps generalizing count pip prev with
  | nil => exact pure _
  | cons q ps ih =>
    obtain ⟨p, c⟩ := q
    have h1 := callFunction hrec (hp _ List.mem_cons_self)
    have h2 := ih fun q hq => hp q (List.mem_cons_of_mem _ hq)
    obtain ⟨_, ha, hb, hd⟩ := hp _ List.mem_cons_self
    have h4 : ∀ e, Only P (Rsh.tempExecve w p.argv0 p.argv e) := tempExecve (by rw [hb]; exact ha) (by rw [hb]; exact hd)
    clear hrec hp ih ha hb hd
    have h3 := fun pip prev => pipelineChild (w := w) h1 h4 b id pip prev
    unfold Rsh.forkLoop
    have h5 : ∀ pip : Int × Int, Only P (do
        let s ← Rsh.getS
        match w.fork s.trace with
        | none => Rsh.emit .forkFailed
        | some pid => do
          let (e, evs) ← Rsh.runChild w (Rsh.pipelineChild w rec b id pip prev p c)
          Rsh.emit (.spawn pid e evs)
          Rsh.modJc fun jc => (jc.modJob id (setPidAt count pid)).updatePid id pid
        if 0 ≤ prev then Rsh.closeU prev else Pure.pure ()
        let _ ← Rsh.closeM pip.2
        Rsh.forkLoop w rec b id total ps (count + 1) pip pip.1 : M Unit) := by
      intro pip
      have h6 : Only P (do
          if 0 ≤ prev then Rsh.closeU prev else Pure.pure ()
          let _ ← Rsh.closeM pip.2
          Rsh.forkLoop w rec b id total ps (count + 1) pip pip.1 : M Unit) := by
        clear h1 h3 h4
        named
      refine bind getS fun s => ?_
      dsimp only at h6 ⊢
      cases w.fork s.trace with
      | none => exact bind (emitPlain rfl) fun _ => h6
      | some pid => exact runChild_bind (h3 _ _) fun r hr => bind (emit (hr.spawn _)) fun _ => bind (modJc _) fun _ => h6
    clear h1 h2 h3 h4
    dsimp only at h5 ⊢
    refine ite (bind pipeM fun o => ?_) (bind (pure _) fun pip => h5 pip)
    cases o with
    | none => exact bind (throwE _) fun pip => h5 pip
    | some pr => exact bind (pure _) fun pip => h5 pip

theorem afterFork (b : Bool) (id count : Nat) : Only P (Rsh.afterFork w b id count) := by
  have := deleteJobM (P := P)
  have := waitForJob (P := P) (w := w)
  unfold Rsh.afterFork; named

include hrec in
theorem evalPipeline {pl : Pipeline} (hp : pipeOnly P pl = true) : Only P (Rsh.evalPipeline w rec pl) := by
  have h1 := afterFork (P := P) (w := w)
  have h4 := createJobM (P := P)
  obtain ⟨neg, cs, bg⟩ := pl
  intro base s hs
  unfold Rsh.evalPipeline
  refine bindAt (interruptsOff s hs) fun _ s1 _ hs1 => ?_
  obtain ⟨h5, h6⟩ := evalCommands (w := w) (rec := rec) (by simpa [pipeOnly] using hp) hs1
  refine bindAt h5 fun ps s2 h hs2 => ?_
  have h7 := h6 ps s2 h
  refine ite (pure _) ?_ s2 hs2
  intro base s3 hs3
  have h8 := runFunctions hrec h7
  dsimp only
  split
  · rw [run_pure_bind]
    have h10 := forkLoop (w := w) hrec h7
    refine (?_ : Only P (α := Int) _) s3 hs3
    clear hrec hp h h6 h7 h8
    named
  · refine bindAt (h8 s3 hs3) fun qs s4 h hs4 => ?_
    have h10 := forkLoop (w := w) hrec fun q hq => h7 q (runFunctions_sub h q hq)
    refine (?_ : Only P (α := Int) _) s4 hs4
    clear hrec hp h h6 h7 h8
    named

include hrec in
theorem evalAndOr {a : AndOr} (ha : chainOnly P a = true) : Only P (Rsh.evalAndOr w rec a) := by
  fun_induction Rsh.evalAndOr w rec a with
  | case1 c p => exact evalPipeline hrec (by simpa [chainOnly] using ha)
  | case2 l c p ih =>
    simp only [chainOnly, Bool.and_eq_true] at ha
    have h1 := evalPipeline (w := w) hrec ha.2
    have h2 := ih ha.1
    clear ha ih hrec
    named

include hrec in
theorem evalListFrom (st : Int) {l : List AndOr} (hl : listOnly P l = true) :
    Only P (Rsh.evalListFrom w rec st l) := by
  induction l generalizing st with
  | nil => exact pure _
  | cons a as ih =>
    simp only [listOnly, Bool.and_eq_true] at hl
    have h1 := evalAndOr (w := w) hrec hl.1
    have h2 := fun st => ih st hl.2
    clear hl ih hrec
    unfold Rsh.evalListFrom; named

theorem evalFuel (n : Nat) : ∀ l, listOnly P l = true → Only P (Rsh.evalFuel w n l) := by
  induction n with
  | zero => exact fun _ _ => deepM
  | succ n ih => exact fun l hl => evalListFrom ih (-1) hl

theorem evalTop {n : Nat} {t : Str} {cc : CompleteCommand} (hp : parse t = some cc) (ht : RunsOnly P t) :
    Only P (Rsh.evalTop w n cc) := by
  unfold Rsh.evalTop Rsh.evalCC
  split
  · next l =>
    unfold RunsOnly at ht
    rw [hp] at ht
    exact evalFuel n l ht
  · exact pure _

theorem interactiveLine {n : Nat} {t : Str} (ht : RunsOnly P t) : Only P (Rsh.interactiveLine w n t) := by
  unfold Rsh.interactiveLine
  refine ite (pure _) ?_
  split
  · exact printlnM _
  · next cc h =>
    have := evalTop (n := n) (w := w) h ht
    clear ht
    named

theorem scriptLine {n : Nat} {t : Str} (ht : RunsOnly P t) : Only P (Rsh.scriptLine w n t) := by
  unfold Rsh.scriptLine
  cases hp : parse t with
  | none => exact fun _ s hs => ⟨nofun, hs⟩
  | some cc =>
    have := evalTop (n := n) (w := w) hp ht
    clear ht hp
    show Only P (Pure.pure cc >>= fun cc => Rsh.tryE (Rsh.evalTop w n cc) >>= fun _ => Pure.pure ())
    rw [pure_bind]
    named

theorem readStartup {n : Nat} {p : Str} (hf : ∀ tr t, w.readFile tr p = .text t → RunsOnly P t) :
    Only P (Rsh.readStartup w n p) := by
  unfold Rsh.readStartup Rsh.readFileM
  intro base s hs
  rw [bind_assoc, run_getS_bind, bind_assoc]
  refine bindAt (emitPlain rfl s hs) fun _ s1 _ hs1 => ?_
  rw [run_pure_bind]
  cases hr : w.readFile s.trace p with
  | missing => exact pure _ s1 hs1
  | notUtf8 => exact printlnM _ s1 hs1
  | text t =>
    dsimp only
    cases hc : parse t with
    | none => exact printlnM _ _ hs1
    | some cc =>
      have h2 := evalTop (n := n) (w := w) hc (hf _ _ hr)
      refine (?_ : Only P (α := Unit) _) _ hs1
      clear hf hr hc
      named

theorem deliver (g : Nat) : Only P (Rsh.deliver w g) := by
  have h1 := waitForJob (P := P) (w := w)
  have h2 := deleteJobM (P := P)
  have h3 := modJc (P := P)
  have h4 := waitpidM (P := P)
  have h5 := onSigOther (P := P) (w := w)
  have h6 : ∀ id st, Only P (Rsh.waitForJobSigchld w id st) := by
    intro id st; unfold Rsh.waitForJobSigchld; named
  have h7 : ∀ pid st msg, Only P (sigChldWith.go w pid st msg) := by
    intro pid st msg
    unfold sigChldWith.go; named
  have h8 : ∀ r, Only P (sigChldWith w r) := by intro r; unfold sigChldWith; named
  unfold Rsh.deliver Rsh.onSigchld; named

theorem interactiveLoop {n : Nat} {ins : List SessionIn} (hi : ∀ t, .line t ∈ ins → RunsOnly P t) :
    Only P (Rsh.interactiveLoop w n ins) := by
  have h1 := expandVar (P := P)
  have h2 := saveHistory (P := P) (w := w)
  have h3 := deliver (P := P) (w := w)
  induction ins with
  | nil => exact h2
  | cons i ins ih =>
    have h4 := ih fun t ht => hi t (List.mem_cons_of_mem _ ht)
    have h5 : ∀ t, i = .line t → Only P (Rsh.interactiveLine w n t) := fun t e =>
      interactiveLine (hi t (e ▸ List.mem_cons_self))
    clear hi ih
    cases i with
    | line t =>
      have h6 := h5 t rfl
      clear h5
      unfold Rsh.interactiveLoop; named
    | _ =>
      clear h5
      unfold Rsh.interactiveLoop; named

theorem scriptLines {n : Nat} (j : Nat) {ls : List Str} (hl : ∀ l ∈ ls, RunsOnly P l) :
    Only P (Rsh.scriptLines w n j ls) := by
  have h0 : Only P (Rsh.scriptEof w n j) := by
    have h1 : Only P (Rsh.scriptLine w n []) := scriptLine (by unfold RunsOnly; rw [show parse [] = some none from rfl]; trivial)
    clear hl
    induction j with
    | zero => exact hangM
    | succ j ih => unfold Rsh.scriptEof; named
  induction ls with
  | nil => unfold Rsh.scriptLines; exact h0
  | cons l ls ih =>
    have h1 := scriptLine (n := n) (w := w) (hl l List.mem_cons_self)
    have h2 := ih fun l hm => hl l (List.mem_cons_of_mem _ hm)
    clear hl ih
    unfold Rsh.scriptLines; named

theorem addVarAt (set : Str) (pos : Nat) : Only P (Rsh.addVarAt set pos) := by
  intro base s ht
  unfold Rsh.addVarAt
  rw [run_getS_bind]
  refine unwrapCtx ht fun m h => ?_
  unfold CtxMgr.addVarPos at h
  rcases hc : s.ctx.atPos pos with _ | id
  · rw [hc] at h; cases h
  · rw [hc] at h; exact Calm.mapSet_funs h

theorem argLoop (as : List Str) (st : ArgState) : Only P (Rsh.argLoop as st) := by
  have h1 := addVarAt (P := P)
  have h2 : ∀ a, Only P (setScriptName a) := fun a => modS fun _ => ⟨rfl, rfl, rfl⟩
  have h3 : ∀ a i, Only P (setInputArgs a i) := fun a i => h1 _ _
  induction as generalizing st with
  | nil => exact pure _
  | cons a as ih => unfold Rsh.argLoop; named

theorem readFrom (p : Str) {s s' : Sh} {r : FileRead} (h : readFileM w p s = (.ok r, s')) : r = w.readFile s.trace p := by
  unfold readFileM at h
  cases h
  rfl

theorem mainM {n : Nat} (j : Nat) {args : List Str} {ins : List SessionIn}
    (hi : ∀ t, .line t ∈ ins → RunsOnly P t) (ha : ∀ i, RunsOnly P (joinSp (args.drop i)))
    (hf : ∀ tr p t, w.readFile tr p = .text t → RunsOnly P t ∧ ∀ l ∈ linesIncl t, RunsOnly P l) :
    Only P (Rsh.mainM w n j args ins) := by
  have h1 := fun p => readStartup (w := w) (n := n) (p := p) fun tr t h => (hf tr p t h).1
  have h3 := interactiveLoop (n := n) (w := w) hi
  have h4 : ∀ g, Only P (Rsh.setSignal g) := by intro g; unfold Rsh.setSignal; named
  have h5 : Only P Rsh.setArg0 := bind getS fun _ => addVarAt _ _
  have h6 : ∀ name, Only P (Rsh.scriptLoop w n j name) := by
    intro name base s hs
    unfold Rsh.scriptLoop
    refine bindAt ?_ fun r s1 h hs1 => ?_
    · exact (bind getS fun _ => bind (emitPlain rfl) fun _ => pure _) s hs
    · cases hr : r with
      | missing => exact panicM _ s1 hs1
      | notUtf8 => exact panicM _ s1 hs1
      | text t => exact scriptLines j (hf _ _ t ((readFrom name h).symm.trans hr)).2 s1 hs1
  have h7 : ∀ i, Only P (Rsh.readFromArgs w n (joinSp (args.drop i))) := fun i => scriptLine (ha i)
  have h8 := argLoop (P := P)
  have h9 := pushContextNew (P := P)
  intro base s hs
  unfold Rsh.mainM
  have h10 : Only P (parseArgs w args) := by
    clear hi ha hf h7 h1 h3 h6
    unfold parseArgs; named
  refine bindAt (h10 s hs) fun inp s1 h hs1 => ?_
  cases inp with
  | none =>
    refine (?_ : Only P (α := Unit) _) s1 hs1
    clear hi ha hf h7 h h10
    named
  | some i =>
    obtain ⟨q, rfl⟩ : ∃ q, i = joinSp (args.drop q) := by
      unfold parseArgs at h
      split at h
      · cases h
      · obtain ⟨st, s2, h11, h12⟩ := bind_ok_iff.1 h
        split at h12
        · cases h12
          exact ⟨_, rfl⟩
        · cases h12
    refine (?_ : Only P (α := Unit) _) s1 hs1
    have h11 := h7 q
    clear hi ha hf h7 h h10
    named

theorem init (P : List Str) (root : Bool) (ppid pid : Nat) (cwd : Str) (env : AMap Str) (waits : List WRes) :
    KnownFuns P (initSh root ppid pid cwd env waits) := by
  refine ⟨fun id f b h => ?_, rfl⟩
  exact absurd ((Roomy.init (fun _ => 0) root ppid pid cwd env waits).functions id f b h).1 (Nat.lt_irrefl 0)

end Only

/-- C160, one line: if the functions of the shell run only commands named in `P` (and builtins), there are no aliases
and the line is of the same kind, then every program it starts, in the shell, in functions, in pipelines and in every
forked copy of the shell, is the file of a name in `P` in some directory, started under that name; and the next lines
meet the same functions. -/
theorem C160_line (P : List Str) (w : World) (n : Nat) {t : Str} (ht : RunsOnly P t) {s : Sh} (hs : KnownFuns P s) :
    (∃ new, (interactiveLine w n t s).2.trace = new ++ s.trace ∧ ∀ img ∈ programs new, NamedIn P img) ∧
    (∀ img, (interactiveLine w n t s).1 = .execed img → NamedIn P img) ∧ KnownFuns P (interactiveLine w n t s).2 := by
  have h := Only.interactiveLine (w := w) (n := n) ht s ⟨hs, [], rfl, fun _ h => nomatch h⟩
  obtain ⟨h1, h2, new, h3, h4⟩ := h
  refine ⟨⟨new, h3, fun img hi => ?_⟩, h1, h2⟩
  obtain ⟨e, he, hi⟩ := mem_programs.1 hi
  exact h4 e he img hi

/-- C160, a whole run of the shell, from its arguments to its end: if the lines typed, the start-up files, the script
and the text after `-c` run only commands named in `P`, then so are all programs ever started. -/
theorem C160_run (P : List Str) (w : World) (n j : Nat) (args : List Str) (ins : List SessionIn)
    (hi : ∀ t, .line t ∈ ins → RunsOnly P t) (ha : ∀ i, RunsOnly P (joinSp (args.drop i)))
    (hf : ∀ tr p t, w.readFile tr p = .text t → RunsOnly P t ∧ ∀ l ∈ linesIncl t, RunsOnly P l)
    (root : Bool) (ppid pid : Nat) (cwd : Str) (env : AMap Str) (waits : List WRes) :
    ∀ img, Runs (mainM w n j args ins (initSh root ppid pid cwd env waits)) img → NamedIn P img := by
  obtain ⟨h1, _, new, h3, h4⟩ := Only.mainM (w := w) (n := n) j hi ha hf (initSh root ppid pid cwd env waits)
    ⟨Only.init P root ppid pid cwd env waits, [], rfl, fun _ h => nomatch h⟩
  rintro img (h | h)
  · rw [h3] at h
    obtain ⟨e, he, hi⟩ := mem_programs.1 h
    rcases List.mem_append.1 he with he | he
    · exact h4 e he img hi
    · cases he
  · exact h1 img h

/-- C160, so input that uses only builtins other than those that run texts or programs starts nothing at all. -/
theorem C160_builtins (w : World) (n j : Nat) (args : List Str) (ins : List SessionIn)
    (hi : ∀ t, .line t ∈ ins → RunsOnly [] t) (ha : ∀ i, RunsOnly [] (joinSp (args.drop i)))
    (hf : ∀ tr p t, w.readFile tr p = .text t → RunsOnly [] t ∧ ∀ l ∈ linesIncl t, RunsOnly [] l)
    (root : Bool) (ppid pid : Nat) (cwd : Str) (env : AMap Str) (waits : List WRes) (img : ExecImage) :
    ¬ Runs (mainM w n j args ins (initSh root ppid pid cwd env waits)) img :=
  fun h => by
    obtain ⟨x, hx, _⟩ := C160_run [] w n j args ins hi ha hf root ppid pid cwd env waits img h
    cases hx

/-- Such lines, and some that are not. -/
example : (∀ t ∈ [cs!"f() { a | b; cd /; }", cs!"f x && g; readonly X=1", cs!"A=1 a 'it''s' > file &"],
      RunsOnly [cs!"a", cs!"b", cs!"f", cs!"g"] t) ∧
    ∀ t ∈ [cs!"c", cs!"f() { c; }", cs!"eval a", cs!"exec a", cs!"a $X", cs!"alias a=c"],
      ¬ RunsOnly [cs!"a", cs!"b", cs!"f", cs!"g"] t := by decide +kernel

/-- The programs of a session with such lines. -/
example : (∀ t ∈ [cs!"f() { a | b; cd /; }", cs!"f x && a; readonly X=1"], RunsOnly [cs!"a", cs!"b", cs!"f"] t) ∧
    (programs (demo [cs!"f() { a | b; cd /; }", cs!"f x && a; readonly X=1"]
      [.st (.exited 100 0), .st (.exited 101 0), .st (.exited 102 0)]).trace).map (fun i => (i.path, i.argv)) =
      [(cs!"/bin/a", [cs!"a"]), (cs!"/bin/b", [cs!"b"]), (cs!"/bin/a", [cs!"a"])] := by
  decide +kernel

end Rsh
