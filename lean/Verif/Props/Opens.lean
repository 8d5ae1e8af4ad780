import Verif.Proofs.Opens
import Verif.Props.OnlyNamed

/-!
# C163: only files named in the input are opened
-/

namespace Rsh

open Spec

namespace Opening

variable {F : List (RedirectType × Str)} {tx : Bool} {w : World} {rec : List AndOr → M Int}

theorem callOpens_level {c : SimpleCommand} (h : callOpens F c = true) : callLevel (fun _ => 0) 0 c = true ∧
    (isBuiltin c.name = true ∨ ∀ f ∈ redirFiles c, f ∈ F) := by
  simp only [callOpens, Bool.and_eq_true, Bool.or_eq_true, List.contains_eq_mem, decide_eq_true_eq, List.all_eq_true] at h
  obtain ⟨⟨h1, h3⟩, h4⟩ := h
  refine ⟨?_, h4.imp (fun h => decide_eq_true h) fun h => h.2⟩
  simp only [callLevel, Bool.and_eq_true, Bool.or_eq_true, List.contains_eq_mem, decide_eq_true_eq, List.all_eq_true]
  exact ⟨⟨h1, h3⟩, h4.imp id fun h => ⟨h.1, Nat.le_refl 0⟩⟩

/-- A program or function with redirections out of `F`. -/
structure Caller (F : List (RedirectType × Str)) (q : Process × SimpleCommand) : Prop where
  unqualified : ':' ∉ q.2.name
  files : ∀ f ∈ redirFiles q.2, f ∈ F

theorem evalWords_files {c c' : SimpleCommand} {s s' : Sh} (h : Rsh.evalWords w rec c s = (.ok c', s')) :
    ∀ f ∈ redirFiles c', f ∈ redirFiles c := by
  unfold Rsh.evalWords at h
  split at h
  · cases h; exact fun _ h => h
  · dsimp only at h
    split at h <;>
    · obtain ⟨_, _, _, h⟩ := bind_ok_iff.1 h
      obtain ⟨_, _, _, h⟩ := bind_ok_iff.1 h
      obtain ⟨ns, _, _, h⟩ := bind_ok_iff.1 h
      split at h
      · cases h
      cases hs : c.suffix with
      | none =>
        rw [hs] at h
        cases h
        intro f hf; simpa [redirFiles, hs] using hf
      | some sf =>
        rw [hs] at h
        dsimp only at h
        split at h
        · cases h
          intro f hf
          simp only [redirFiles, hs, List.filterMap_append, List.map_append, List.mem_append] at hf ⊢
          exact .inl (by simpa using hf)
        · obtain ⟨_, _, _, h⟩ := bind_ok_iff.1 h
          cases h
          intro f hf; simpa [redirFiles, hs] using hf

theorem expandCommand_files {c c' : SimpleCommand} {s s' : Sh} (ha : s.aliases = [])
    (h : Rsh.expandCommand w rec c s = (.ok c', s')) : ∀ f ∈ redirFiles c', f ∈ redirFiles c := by
  unfold Rsh.expandCommand at h
  have e1 : Rsh.aliasLookup c s = (.ok c, s) := by
    unfold Rsh.aliasLookup lookupAlias
    rw [run_getS_bind, ha]
    rfl
  rw [run_bind_ok e1] at h
  obtain ⟨c2, s2, h1, h2⟩ := bind_ok_iff.1 h
  intro f hf
  have := evalWords_files h2 f hf
  unfold Rsh.expandVars at h1
  rw [run_getS_bind] at h1
  rcases he : expandVarsIn s.ctx c with _ | c3
  · rw [he] at h1; cases h1
  · rw [he, unwrapM_some] at h1
    cases h1
    unfold expandVarsIn at he
    dsimp only at he
    obtain ⟨pre, hp, rfl⟩ := Option.map_eq_some_iff.1 he
    have hpre : pre.map Prefix.ioRedirect = c.pre.map Prefix.ioRedirect := by
      cases hc : c.pre with
      | none => rw [hc] at hp; cases hp; rfl
      | some p =>
        rw [hc] at hp
        obtain ⟨as, _, rfl⟩ := Option.map_eq_some_iff.1 hp
        rfl
    simp only [redirFiles, hpre, Option.map_map, Function.comp_def] at this ⊢
    exact this

theorem evalSimple {c : SimpleCommand} (hc : callOpens F c = true) {base : List Event} {s : Sh} (hs : TamedF F tx base s) :
    AllTouch F tx base (Rsh.evalSimple w rec c s) ∧
      ∀ q s1, Rsh.evalSimple w rec c s = (.ok (some q), s1) → Caller F q := by
  obtain ⟨hc, hF⟩ := callOpens_level hc
  obtain ⟨h1, h2, h3⟩ := Roomy.callLevel_iff hc
  obtain ⟨o, ho, _, he, hn⟩ := Roomy.expandCommand (w := w) (rec := rec) (Roomy.stable_of hc) h2 hs.funs.aliases
  unfold Rsh.evalSimple
  by_cases hb : isBuiltin c.name = true
  · rw [if_pos hb]
    refine ⟨bindAt ?_ fun _ s1 _ h => pure _ s1 h, fun q s1 h => ?_⟩
    · unfold Rsh.evalBuiltin
      refine bindAt (by rw [ho]; exact hs) fun c' s1 h hs1 => ?_
      rw [ho] at h
      cases h
      exact callBuiltin (by rw [hn _ rfl]; exact h1) _ hs1
    · obtain ⟨_, _, _, h⟩ := bind_ok_iff.1 h
      cases h
  · rw [if_neg hb]
    have h4 := h3.resolve_left hb
    refine ⟨bindAt (by rw [ho]; exact hs) fun c' s1 _ hs1 =>
      bind (unwrapM _ _) (fun _ => pure _) s1 hs1, fun q s1 h => ?_⟩
    obtain ⟨c', s2, h5, h6⟩ := bind_ok_iff.1 h
    have hfiles := expandCommand_files hs.funs.aliases h5
    rw [ho] at h5
    cases h5
    obtain ⟨av, s3, h8, h7⟩ := bind_ok_iff.1 h6
    cases h7
    exact ⟨by rw [hn _ rfl]; exact h4.1.2, fun f hf => hF.resolve_left hb f (hfiles f hf)⟩

theorem evalCommand {c : Command} (hc : cmdOpens F c = true) {base : List Event} {s : Sh} (hs : TamedF F tx base s) :
    AllTouch F tx base (Rsh.evalCommand w rec c s) ∧
      ∀ q s1, Rsh.evalCommand w rec c s = (.ok (some q), s1) → Caller F q := by
  cases c with
  | simple c => exact evalSimple (by simpa [cmdOpens] using hc) hs
  | compound c r =>
    unfold Rsh.evalCommand
    exact ⟨throwE _ s hs, fun q s1 h => by cases h⟩
  | funcDef f b =>
    simp only [cmdOpens] at hc
    unfold Rsh.evalCommand
    refine ⟨bind (addFunctionM hc) (fun _ => pure _) s hs, fun q s1 h => ?_⟩
    obtain ⟨_, _, _, h⟩ := bind_ok_iff.1 h
    cases h

theorem evalCommands {cs : List Command} (hc : cmdsOpens F cs = true) {base : List Event} {s : Sh} (hs : TamedF F tx base s) :
    AllTouch F tx base (Rsh.evalCommands w rec cs s) ∧
      ∀ ps s1, Rsh.evalCommands w rec cs s = (.ok ps, s1) → ∀ q ∈ ps, Caller F q := by
  induction cs generalizing s with
  | nil => exact ⟨hs, fun ps s1 h => by cases h; simp⟩
  | cons c cs ih =>
    simp only [cmdsOpens, Bool.and_eq_true] at hc
    obtain ⟨h1, h2⟩ := evalCommand (w := w) (rec := rec) hc.1 hs
    unfold Rsh.evalCommands
    refine ⟨bindAt h1 fun o s1 h hs1 => ?_, fun ps s1 h => ?_⟩
    · cases o with
      | none => exact pure _ s1 hs1
      | some q => exact bindAt (ih hc.2 hs1).1 fun _ s2 _ hs2 => pure _ s2 hs2
    · obtain ⟨o, s2, h3, h4⟩ := bind_ok_iff.1 h
      cases o with
      | none => cases h4; simp
      | some q =>
        obtain ⟨rest, s3, h5, h6⟩ := bind_ok_iff.1 h4
        cases h6
        rw [h3] at h1
        intro q' hq
        rcases List.mem_cons.1 hq with rfl | hq
        · exact h2 _ _ h3
        · exact (ih hc.2 h1).2 _ _ h5 q' hq

theorem setParams (i : Nat) (as : List Str) : Opening F tx (Rsh.setParams i as) := by
  have := addVarContext (F := F) (tx := tx)
  induction as generalizing i with
  | nil => exact pure _
  | cons p a ih => unfold Rsh.setParams; opening

variable (hrec : ∀ l, listOpens F l = true → Opening F tx (rec l))

include hrec in
theorem callFunction {p : Process} {c : SimpleCommand} (hc : Caller F (p, c)) : Opening F tx (Rsh.callFunction rec c) := by
  have h0 : Opening F tx (Rsh.evalFunction rec c) := by
    intro base s hs
    unfold Rsh.evalFunction
    rw [run_getS_bind]
    cases hf : s.ctx.getFunction c.name with
    | none => exact throwE _ s hs
    | some b =>
      have hu : Unqualified c.name := fun a b e => hc.1 (by rw [e]; simp)
      rw [CtxMgr.getFunction_unqualified _ hu] at hf
      obtain ⟨id, _, hf⟩ := List.exists_of_findSome?_eq_some hf
      have hb := hs.funs.functions id c.name b hf
      have h1 : Opening F tx (evalCompound rec b.cc) := by
        obtain ⟨cc, io⟩ := b
        cases cc with
        | braceGroup l =>
          have := hrec l (by simpa [bodyOpens, groupOpens] using hb)
          show Opening F tx (evalCompound rec (.braceGroup l))
          unfold evalCompound; opening
        | unsupported => exact panicM _
      have h2 := addVarContext (F := F) (tx := tx)
      have h3 := setParams (F := F) (tx := tx)
      have h4 := popContext (F := F) (tx := tx)
      have h5 := pushContextNew (F := F) (tx := tx)
      refine (?_ : Opening F tx (α := Unit) _) s hs
      clear hrec
      opening
  clear hrec
  unfold Rsh.callFunction; opening

include hrec in
theorem runFunctions {ps : List (Process × SimpleCommand)} (hp : ∀ q ∈ ps, Caller F q) :
    Opening F tx (Rsh.runFunctions rec ps) := by
  induction ps with
  | nil => exact pure _
  | cons q ps ih =>
    obtain ⟨p, c⟩ := q
    have h1 := callFunction hrec (hp _ List.mem_cons_self)
    have h2 := ih fun q hq => hp q (List.mem_cons_of_mem _ hq)
    clear hrec hp ih
    unfold Rsh.runFunctions; opening

theorem dup2U (a b : Int) : Opening F tx (Rsh.dup2U a b) := by
  refine stateOnly fun s => ?_
  unfold Rsh.dup2U
  split
  · exact ⟨rfl, rfl, .inl rfl⟩
  · split <;> exact ⟨rfl, rfl, .inl rfl⟩

theorem openU {ty : RedirectType} {f : Str} (hf : (ty, f) ∈ F) : Opening F tx (Rsh.openU w ty f) := by
  intro base s hs
  unfold Rsh.openU
  split
  · refine hs.event rfl rfl rfl fun t ht => ?_
    rw [List.mem_singleton.1 ht]
    exact hf
  · exact hs

theorem evalRedirects {rs : List IoRedirect} (hr : ∀ r ∈ rs, ∀ f, r.ioFile = some f → (f.ty, f.filename) ∈ F) :
    Opening F tx (Rsh.evalRedirects w rs) := by
  have := dup2U (F := F) (tx := tx)
  induction rs with
  | nil => exact pure _
  | cons r rs ih =>
    have h1 := ih fun r h => hr r (List.mem_cons_of_mem _ h)
    have h2 : ∀ f, r.ioFile = some f → Opening F tx (Rsh.openU w f.ty f.filename) :=
      fun f h => openU (hr r List.mem_cons_self f h)
    have h3 : Opening F tx (evalRedirect1 w r) := by
      unfold evalRedirect1
      split
      · exact pure _
      · next f hf =>
        have := h2 f hf
        opening
    clear hr ih h2
    unfold Rsh.evalRedirects; opening

theorem evalAssignments (l : List Str) : Opening F tx (Rsh.evalAssignments l) := by
  have : ∀ a b, Opening F tx (setEnv a b) := fun a b => by
    refine stateOnly fun s => ?_
    unfold setEnv
    split <;> exact ⟨rfl, rfl, .inl rfl⟩
  induction l with
  | nil => exact pure _
  | cons a l ih => unfold Rsh.evalAssignments; opening

omit hrec in
theorem evalPrefixSuffix {c : SimpleCommand} (hc : ∀ f ∈ redirFiles c, f ∈ F) : Opening F tx (Rsh.evalPrefixSuffix w c) := by
  have h1 : ∀ p, c.pre = some p → Opening F tx (Rsh.evalRedirects w p.ioRedirect) := fun p hp =>
    evalRedirects fun r hr f hf => hc _ (by
      simp only [redirFiles, hp, Option.map_some, Option.getD_some, List.mem_map, List.mem_filterMap, List.mem_append]
      exact ⟨f, ⟨r, .inl hr, hf⟩, rfl⟩)
  have h2 : ∀ p, c.suffix = some p → Opening F tx (Rsh.evalRedirects w p.ioRedirect) := fun p hp =>
    evalRedirects fun r hr f hf => hc _ (by
      simp only [redirFiles, hp, Option.map_some, Option.getD_some, List.mem_map, List.mem_filterMap, List.mem_append]
      exact ⟨f, ⟨r, .inr hr, hf⟩, rfl⟩)
  have h3 := evalAssignments (F := F) (tx := tx)
  unfold Rsh.evalPrefixSuffix
  have h4 : Opening F tx (match c.suffix with
      | some sf => Rsh.evalRedirects w sf.ioRedirect
      | none => (Pure.pure () : M Unit)) := by
    cases hs : c.suffix with
    | none => exact pure _
    | some p => exact h2 p hs
  dsimp only at h4 ⊢
  cases hp : c.pre with
  | none => exact bind (pure ()) fun _ => h4
  | some p => exact bind (h1 p hp) fun _ => bind (h3 _) fun _ => h4

omit hrec in
theorem pipelineChild {p : Process} {c : SimpleCommand} (h1 : Opening F tx (Rsh.callFunction rec c))
    (hc : ∀ f ∈ redirFiles c, f ∈ F) (b : Bool) (id : Nat) (pip : Int × Int) (prev : Int) :
    Opening F tx (Rsh.pipelineChild w rec b id pip prev p c) := by
  have h5 := closeU (F := F) (tx := tx)
  have h6 := dup2U (F := F) (tx := tx)
  have h7 := evalPrefixSuffix (tx := tx) (w := w) hc
  have h4 := tempExecve (F := F) (tx := tx) (w := w) p.argv0 p.argv
  have h8 : Opening F tx (do
      Rsh.evalPrefixSuffix w c
      let s ← Rsh.getS
      if s.ctx.isFunction c.name then do
        Rsh.callFunction rec c
        Rsh.exitM 0
      else do
        match ← Rsh.tryE (do
            let s ← Rsh.getS
            Rsh.tempExecve w p.argv0 p.argv s.env) with
        | .ok _ => Rsh.panicM .explicit
        | .error _ => do
          Rsh.eprintlnM (p.cmd ++ cs!": Command not found\n")
          Rsh.exitM 1 : M Unit) := by
    refine bind h7 fun _ => bind getS fun s => ite (bind h1 fun _ => exitM _) ?_
    refine bind (tryE (bind getS fun s => h4 _)) fun r => ?_
    cases r with
    | ok _ => exact panicM _
    | error _ => exact bind (eprintlnM _) fun _ => exitM _
  unfold Rsh.pipelineChild
  refine bind (modS fun _ => ⟨rfl, rfl, rfl⟩) fun _ => ?_
  dsimp only
  generalize (do
      Rsh.evalPrefixSuffix w c
      let s ← Rsh.getS
      if s.ctx.isFunction c.name then do
        Rsh.callFunction rec c
        Rsh.exitM 0
      else do
        match ← Rsh.tryE (do
            let s ← Rsh.getS
            Rsh.tempExecve w p.argv0 p.argv s.env) with
        | .ok _ => Rsh.panicM .explicit
        | .error _ => do
          Rsh.eprintlnM (p.cmd ++ cs!": Command not found\n")
          Rsh.exitM 1 : M Unit) = m at h8 ⊢
  clear h1 h4 h7 hc
  opening

include hrec in
theorem forkLoop {ps : List (Process × SimpleCommand)} (hp : ∀ q ∈ ps, Caller F q) (b : Bool) (id total count : Nat)
    (pip : Int × Int) (prev : Int) : Opening F tx (Rsh.forkLoop w rec b id total ps count pip prev) := by
  have := pipeM (F := F) (tx := tx) (w := w)
  have := closeU (F := F) (tx := tx)
  have := closeM (F := F) (tx := tx)
  have := modJc (F := F) (tx := tx)
  have := dup2U (F := F) (tx := tx)
  induction ps generalizing count pip prev with
  | nil => exact pure _
  | cons q ps ih =>
    obtain ⟨p, c⟩ := q
    have h1 := callFunction hrec (hp _ List.mem_cons_self)
    have h2 := ih fun q hq => hp q (List.mem_cons_of_mem _ hq)
    have h4 := (hp _ List.mem_cons_self).files
    clear hrec hp ih
    have h3 := fun pip prev => pipelineChild (w := w) (p := p) h1 h4 b id pip prev
    unfold Rsh.forkLoop
    have h5 : ∀ pip : Int × Int, Opening F tx (do
        let s ← Rsh.getS
        match w.fork s.trace with
        | none => Rsh.emit .forkFailed
        | some pid => do
          let (e, evs) ← Rsh.runChild w (Rsh.pipelineChild w rec b id pip prev p c)
          Rsh.emit (.spawn pid e evs)
          Rsh.modJc fun jc => (jc.modJob id (setPidAt count pid)).updatePid id pid
        if 0 ≤ prev then Rsh.closeU prev else Pure.pure ()
        let _ ← Rsh.closeM pip.2
        Rsh.forkLoop w rec b id total ps (count + 1) pip pip.1 : M Unit) := by
      intro pip
      have h6 : Opening F tx (do
          if 0 ≤ prev then Rsh.closeU prev else Pure.pure ()
          let _ ← Rsh.closeM pip.2
          Rsh.forkLoop w rec b id total ps (count + 1) pip pip.1 : M Unit) := by
        clear h1 h3 h4
        opening
      refine bind getS fun s => ?_
      dsimp only at h6 ⊢
      cases w.fork s.trace with
      | none => exact bind (emitPlain rfl) fun _ => h6
      | some pid => exact runChild_bind (h3 _ _) fun r hr => bind (emit (hr.spawn _)) fun _ => bind (modJc _) fun _ => h6
    clear h1 h2 h3 h4
    dsimp only at h5 ⊢
    refine ite (bind pipeM fun o => ?_) (bind (pure _) fun pip => h5 pip)
    cases o with
    | none => exact bind (throwE _) fun pip => h5 pip
    | some pr => exact bind (pure _) fun pip => h5 pip

theorem afterFork (b : Bool) (id count : Nat) : Opening F tx (Rsh.afterFork w b id count) := by
  have := deleteJobM (F := F) (tx := tx)
  have := waitForJob (F := F) (tx := tx) (w := w)
  unfold Rsh.afterFork; opening

include hrec in
theorem evalPipeline {pl : Pipeline} (hp : pipeOpens F pl = true) : Opening F tx (Rsh.evalPipeline w rec pl) := by
  have h1 := afterFork (F := F) (tx := tx) (w := w)
  have h4 := createJobM (F := F) (tx := tx)
  obtain ⟨neg, cs, bg⟩ := pl
  intro base s hs
  unfold Rsh.evalPipeline
  refine bindAt (interruptsOff s hs) fun _ s1 _ hs1 => ?_
  obtain ⟨h5, h6⟩ := evalCommands (w := w) (rec := rec) (by simpa [pipeOpens] using hp) hs1
  refine bindAt h5 fun ps s2 h hs2 => ?_
  have h7 := h6 ps s2 h
  refine ite (pure _) ?_ s2 hs2
  intro base s3 hs3
  have h8 := runFunctions hrec h7
  dsimp only
  split
  · rw [run_pure_bind]
    have h10 := forkLoop (w := w) hrec h7
    refine (?_ : Opening F tx (α := Int) _) s3 hs3
    clear hrec hp h h6 h7 h8
    opening
  · refine bindAt (h8 s3 hs3) fun qs s4 h hs4 => ?_
    have h10 := forkLoop (w := w) hrec fun q hq => h7 q (runFunctions_sub h q hq)
    refine (?_ : Opening F tx (α := Int) _) s4 hs4
    clear hrec hp h h6 h7 h8
    opening

include hrec in
theorem evalAndOr {a : AndOr} (ha : chainOpens F a = true) : Opening F tx (Rsh.evalAndOr w rec a) := by
  fun_induction Rsh.evalAndOr w rec a with
  | case1 c p => exact evalPipeline hrec (by simpa [chainOpens] using ha)
  | case2 l c p ih =>
    simp only [chainOpens, Bool.and_eq_true] at ha
    have h1 := evalPipeline (w := w) hrec ha.2
    have h2 := ih ha.1
    clear ha ih hrec
    opening

include hrec in
theorem evalListFrom (st : Int) {l : List AndOr} (hl : listOpens F l = true) :
    Opening F tx (Rsh.evalListFrom w rec st l) := by
  induction l generalizing st with
  | nil => exact pure _
  | cons a as ih =>
    simp only [listOpens, Bool.and_eq_true] at hl
    have h1 := evalAndOr (w := w) hrec hl.1
    have h2 := fun st => ih st hl.2
    clear hl ih hrec
    unfold Rsh.evalListFrom; opening

theorem evalFuel (n : Nat) : ∀ l, listOpens F l = true → Opening F tx (Rsh.evalFuel w n l) := by
  induction n with
  | zero => exact fun _ _ => deepM
  | succ n ih => exact fun l hl => evalListFrom ih (-1) hl

theorem evalTop {n : Nat} {t : Str} {cc : CompleteCommand} (hp : parse t = some cc) (ht : OpensOnly F t) :
    Opening F tx (Rsh.evalTop w n cc) := by
  unfold Rsh.evalTop Rsh.evalCC
  split
  · next l =>
    unfold OpensOnly at ht
    rw [hp] at ht
    exact evalFuel n l ht
  · exact pure _

theorem interactiveLine {n : Nat} {t : Str} (ht : OpensOnly F t) : Opening F tx (Rsh.interactiveLine w n t) := by
  unfold Rsh.interactiveLine
  refine ite (pure _) ?_
  split
  · exact printlnM _
  · next cc h =>
    have := evalTop (tx := tx) (n := n) (w := w) h ht
    clear ht
    opening

theorem scriptLine {n : Nat} {t : Str} (ht : OpensOnly F t) : Opening F tx (Rsh.scriptLine w n t) := by
  unfold Rsh.scriptLine
  cases hp : parse t with
  | none => exact fun _ s hs => hs
  | some cc =>
    have := evalTop (tx := tx) (n := n) (w := w) hp ht
    clear ht hp
    show Opening F tx (Pure.pure cc >>= fun cc => Rsh.tryE (Rsh.evalTop w n cc) >>= fun _ => Pure.pure ())
    rw [pure_bind]
    opening

theorem readFileM (p : Str) : Opening F true (Rsh.readFileM w p) := by
  unfold Rsh.readFileM
  refine bind getS fun s => bind (emit fun t ht => ?_) fun _ => pure _
  rw [List.mem_singleton.1 ht]
  rfl

theorem readStartup {n : Nat} {p : Str} (hf : ∀ tr t, w.readFile tr p = .text t → OpensOnly F t) :
    Opening F true (Rsh.readStartup w n p) := by
  intro base s hs
  unfold Rsh.readStartup
  refine bindAt (readFileM p s hs) fun r s1 h hs1 => ?_
  have hr := Only.readFrom p h
  cases r with
  | missing => exact pure _ s1 hs1
  | notUtf8 => exact printlnM _ s1 hs1
  | text t =>
    dsimp only
    cases hc : parse t with
    | none => exact printlnM _ _ hs1
    | some cc =>
      have h2 := evalTop (tx := true) (n := n) (w := w) hc (hf _ _ hr.symm)
      refine (?_ : Opening F true (α := Unit) _) _ hs1
      clear hf hr hc h
      opening

theorem deliver (g : Nat) : Opening F tx (Rsh.deliver w g) := by
  have h1 := waitForJob (F := F) (tx := tx) (w := w)
  have h2 := deleteJobM (F := F) (tx := tx)
  have h3 := modJc (F := F) (tx := tx)
  have h4 := waitpidM (F := F) (tx := tx)
  have h5 := onSigOther (F := F) (tx := tx) (w := w)
  have h6 : ∀ id st, Opening F tx (Rsh.waitForJobSigchld w id st) := by
    intro id st; unfold Rsh.waitForJobSigchld; opening
  have h7 : ∀ pid st msg, Opening F tx (sigChldWith.go w pid st msg) := by
    intro pid st msg
    unfold sigChldWith.go; opening
  have h8 : ∀ r, Opening F tx (sigChldWith w r) := by intro r; unfold sigChldWith; opening
  unfold Rsh.deliver Rsh.onSigchld; opening

theorem interactiveLoop {n : Nat} {ins : List SessionIn} (hi : ∀ t, .line t ∈ ins → OpensOnly F t) :
    Opening F tx (Rsh.interactiveLoop w n ins) := by
  have h1 := expandVar (F := F) (tx := tx)
  have h2 := saveHistory (F := F) (tx := tx) (w := w)
  have h3 := deliver (F := F) (tx := tx) (w := w)
  induction ins with
  | nil => exact h2
  | cons i ins ih =>
    have h4 := ih fun t ht => hi t (List.mem_cons_of_mem _ ht)
    have h5 : ∀ t, i = .line t → Opening F tx (Rsh.interactiveLine w n t) := fun t e =>
      interactiveLine (hi t (e ▸ List.mem_cons_self))
    clear hi ih
    cases i with
    | line t =>
      have h6 := h5 t rfl
      clear h5
      unfold Rsh.interactiveLoop; opening
    | _ =>
      clear h5
      unfold Rsh.interactiveLoop; opening

theorem scriptLines {n : Nat} (j : Nat) {ls : List Str} (hl : ∀ l ∈ ls, OpensOnly F l) :
    Opening F tx (Rsh.scriptLines w n j ls) := by
  have h0 : Opening F tx (Rsh.scriptEof w n j) := by
    have h1 : Opening F tx (Rsh.scriptLine w n []) := scriptLine (by unfold OpensOnly; rw [show parse [] = some none from rfl]; trivial)
    clear hl
    induction j with
    | zero => exact hangM
    | succ j ih => unfold Rsh.scriptEof; opening
  induction ls with
  | nil => unfold Rsh.scriptLines; exact h0
  | cons l ls ih =>
    have h1 := scriptLine (tx := tx) (n := n) (w := w) (hl l List.mem_cons_self)
    have h2 := ih fun l hm => hl l (List.mem_cons_of_mem _ hm)
    clear hl ih
    unfold Rsh.scriptLines; opening

theorem addVarAt (set : Str) (pos : Nat) : Opening F tx (Rsh.addVarAt set pos) := by
  intro base s ht
  unfold Rsh.addVarAt
  rw [run_getS_bind]
  refine unwrapCtx ht fun m h => ?_
  unfold CtxMgr.addVarPos at h
  rcases hc : s.ctx.atPos pos with _ | id
  · rw [hc] at h; cases h
  · rw [hc] at h; exact Calm.mapSet_funs h

theorem argLoop (as : List Str) (st : ArgState) : Opening F tx (Rsh.argLoop as st) := by
  have h1 := addVarAt (F := F) (tx := tx)
  have h2 : ∀ a, Opening F tx (setScriptName a) := fun a => modS fun _ => ⟨rfl, rfl, rfl⟩
  have h3 : ∀ a i, Opening F tx (setInputArgs a i) := fun a i => h1 _ _
  induction as generalizing st with
  | nil => exact pure _
  | cons a as ih => unfold Rsh.argLoop; opening

theorem mainM {n : Nat} (j : Nat) {args : List Str} {ins : List SessionIn}
    (hi : ∀ t, .line t ∈ ins → OpensOnly F t) (ha : ∀ i, OpensOnly F (joinSp (args.drop i)))
    (hf : ∀ tr p t, w.readFile tr p = .text t → OpensOnly F t ∧ ∀ l ∈ linesIncl t, OpensOnly F l) :
    Opening F true (Rsh.mainM w n j args ins) := by
  have h1 := fun p => readStartup (w := w) (n := n) (p := p) fun tr t h => (hf tr p t h).1
  have h3 := interactiveLoop (tx := true) (n := n) (w := w) hi
  have h4 : ∀ g, Opening F true (Rsh.setSignal g) := by intro g; unfold Rsh.setSignal; opening
  have h5 : Opening F true Rsh.setArg0 := bind getS fun _ => addVarAt _ _
  have h6 : ∀ name, Opening F true (Rsh.scriptLoop w n j name) := by
    intro name base s hs
    unfold Rsh.scriptLoop
    refine bindAt ?_ fun r s1 h hs1 => ?_
    · exact readFileM name s hs
    · cases hr : r with
      | missing => exact panicM _ s1 hs1
      | notUtf8 => exact panicM _ s1 hs1
      | text t => exact scriptLines j (hf _ _ t ((Only.readFrom name h).symm.trans hr)).2 s1 hs1
  have h7 : ∀ i, Opening F true (Rsh.readFromArgs w n (joinSp (args.drop i))) := fun i => scriptLine (ha i)
  have h8 := argLoop (F := F) (tx := true)
  have h9 := pushContextNew (F := F) (tx := true)
  intro base s hs
  unfold Rsh.mainM
  have h10 : Opening F true (parseArgs w args) := by
    clear hi ha hf h7 h1 h3 h6
    unfold parseArgs; opening
  refine bindAt (h10 s hs) fun inp s1 h hs1 => ?_
  cases inp with
  | none =>
    refine (?_ : Opening F true (α := Unit) _) s1 hs1
    clear hi ha hf h7 h h10
    opening
  | some i =>
    obtain ⟨q, rfl⟩ : ∃ q, i = joinSp (args.drop q) := by
      unfold parseArgs at h
      split at h
      · cases h
      · obtain ⟨st, s2, h11, h12⟩ := bind_ok_iff.1 h
        split at h12
        · cases h12
          exact ⟨_, rfl⟩
        · cases h12
    refine (?_ : Opening F true (α := Unit) _) s1 hs1
    have h11 := h7 q
    clear hi ha hf h7 h h10
    opening

theorem init (F : List (RedirectType × Str)) (root : Bool) (ppid pid : Nat) (cwd : Str) (env : AMap Str) (waits : List WRes) :
    OpeningFuns F (initSh root ppid pid cwd env waits) := by
  refine ⟨fun id f b h => ?_, rfl⟩
  exact absurd ((Roomy.init (fun _ => 0) root ppid pid cwd env waits).functions id f b h).1 (Nat.lt_irrefl 0)

end Opening

/-- C163, one line: if the functions of the shell use only redirections out of `F` (and no builtins that evaluate other
texts), there are no aliases and the line is of the same kind, then every file that is opened, in the shell, in
functions, in pipelines and in every forked copy of the shell, is one of `F`, opened as written there; no file is read
as a text; and the next lines meet the same functions. -/
theorem C163_line (F : List (RedirectType × Str)) (w : World) (n : Nat) {t : Str} (ht : OpensOnly F t) {s : Sh}
    (hs : OpeningFuns F s) :
    (∃ new, (interactiveLine w n t s).2.trace = new ++ s.trace ∧
      ∀ f ∈ touched new, ∃ p ∈ F, f = .opened p.1 p.2) ∧ OpeningFuns F (interactiveLine w n t s).2 := by
  obtain ⟨h2, new, h3, h4⟩ := Opening.interactiveLine (tx := false) (w := w) (n := n) ht s ⟨hs, [], rfl, fun _ h => nomatch h⟩
  refine ⟨⟨new, h3, fun f hf => ?_⟩, h2⟩
  obtain ⟨e, he, hi⟩ := mem_touched.1 hf
  have := h4 e he f hi
  cases f with
  | opened ty p => exact ⟨(ty, p), this, rfl⟩
  | read p => cases this

/-- C163, a whole run of the shell, from its arguments to its end: if the lines typed, the start-up files, the script
and the text after `-c` use only redirections out of `F`, then every file ever opened for a redirection, by the shell or
any forked copy of it, is one of `F`, opened as written there. -/
theorem C163_run (F : List (RedirectType × Str)) (w : World) (n j : Nat) (args : List Str) (ins : List SessionIn)
    (hi : ∀ t, .line t ∈ ins → OpensOnly F t) (ha : ∀ i, OpensOnly F (joinSp (args.drop i)))
    (hf : ∀ tr p t, w.readFile tr p = .text t → OpensOnly F t ∧ ∀ l ∈ linesIncl t, OpensOnly F l)
    (root : Bool) (ppid pid : Nat) (cwd : Str) (env : AMap Str) (waits : List WRes) (ty : RedirectType) (path : Str)
    (h : .opened ty path ∈ touched (mainM w n j args ins (initSh root ppid pid cwd env waits)).2.trace) :
    (ty, path) ∈ F := by
  obtain ⟨_, new, h3, h4⟩ := Opening.mainM (w := w) (n := n) j hi ha hf (initSh root ppid pid cwd env waits)
    ⟨Opening.init F root ppid pid cwd env waits, [], rfl, fun _ h => nomatch h⟩
  rw [h3] at h
  obtain ⟨e, he, hi⟩ := mem_touched.1 h
  rcases List.mem_append.1 he with he | he
  · exact h4 e he _ hi
  · cases he

/-- C163, so input without redirections opens no file but the texts it is read from. -/
theorem C163_none (w : World) (n j : Nat) (args : List Str) (ins : List SessionIn)
    (hi : ∀ t, .line t ∈ ins → OpensOnly [] t) (ha : ∀ i, OpensOnly [] (joinSp (args.drop i)))
    (hf : ∀ tr p t, w.readFile tr p = .text t → OpensOnly [] t ∧ ∀ l ∈ linesIncl t, OpensOnly [] l)
    (root : Bool) (ppid pid : Nat) (cwd : Str) (env : AMap Str) (waits : List WRes) (ty : RedirectType) (path : Str) :
    .opened ty path ∉ touched (mainM w n j args ins (initSh root ppid pid cwd env waits)).2.trace :=
  fun h => by cases C163_run [] w n j args ins hi ha hf root ppid pid cwd env waits ty path h

/-- Such lines, and some that are not; the redirections of a builtin do not count, as nothing is opened for them. -/
example : (∀ t ∈ [cs!"f() { a | b > o; cd /; }", cs!"A=1 f x < i && exec g", cs!"pwd > x"],
      OpensOnly [(.output, cs!"o"), (.input, cs!"i")] t) ∧
    ∀ t ∈ [cs!"a > x", cs!"f() { a >> o; }", cs!"a < o", cs!"a $X", cs!". i"],
      ¬ OpensOnly [(.output, cs!"o"), (.input, cs!"i")] t := by decide +kernel

/-- The hypotheses of `C163_line` are met by a fresh shell. -/
example (F : List (RedirectType × Str)) : OpeningFuns F (demoShell []) :=
  (Opening.bind (tx := true) Opening.pushContextNew (fun _ => Opening.bind Opening.getS fun _ => Opening.addVarAt _ _)
    (initSh false 1 2 (cs!"/") [(cs!"PATH", cs!"/bin"), (cs!"HOME", cs!"/home")] [])
    ⟨Opening.init F false 1 2 (cs!"/") _ [], [], rfl, fun _ h => nomatch h⟩).funs

end Rsh
