import Verif.Proofs.Room
import Verif.Props.Inside
import Verif.Props.Depth

/-!
# C155: programs without recursion end
-/

namespace Rsh

open Spec

namespace Roomy

variable {rank : Str → Nat} {w : World} {rec : List AndOr → M Int} {k : Nat}

theorem callLevel_iff {c : SimpleCommand} (h : callLevel rank k c = true) : c.name ∉ indirect ∧
    (∀ x ∈ c.words, '$' ∉ x ∧ '`' ∉ x) ∧
    (isBuiltin c.name = true ∨ (PlainWord c.name ∧ ':' ∉ c.name) ∧ rank c.name ≤ k) := by
  simp only [callLevel, simpleName, Bool.and_eq_true, Bool.not_eq_true', List.all_eq_true, Bool.or_eq_true, decide_eq_true_eq,
    List.contains_eq_mem, decide_eq_false_iff_not] at h
  exact ⟨h.1.1, h.1.2, h.2.imp (fun h => decide_eq_true h) fun h => h⟩

/-- A name that expansion leaves as it is. -/
def Stable (x : Str) : Prop := x.head? ≠ some '$' ∧ startsWith ['\''] x = false ∧
    startsWith ['"'] x = false ∧ (x = [] ∨ splitQts x = some [x])

theorem stable_of {c : SimpleCommand} (h : callLevel rank k c = true) : Stable c.name := by
  rcases (callLevel_iff h).2.2 with hb | ⟨⟨hp, _⟩, _⟩
  · exact Calm.builtin_plain _ hb
  · refine ⟨plainWord_head hp (by decide), ?_, ?_, .inr (splitQts_plain hp)⟩ <;>
    · rw [Bool.eq_false_iff, Ne, startsWith_single]
      exact plainWord_head hp (by decide)

theorem expandCommand {c : SimpleCommand} (hn : Stable c.name) (hl : ∀ x ∈ c.words, '$' ∉ x ∧ '`' ∉ x) {s : Sh}
    (ha : s.aliases = []) : ∃ o, Rsh.expandCommand w rec c s = (o, s) ∧ o ≠ .deep ∧
      (∀ img, o ≠ .execed img) ∧ ∀ c', o = .ok c' → c'.name = c.name := by
  obtain ⟨h1, h2, h3, h4⟩ := hn
  unfold Rsh.expandCommand
  have e1 : Rsh.aliasLookup c s = (.ok c, s) := by
    unfold Rsh.aliasLookup lookupAlias
    rw [run_getS_bind, ha]
    rfl
  rw [run_bind_ok e1, run_bind]
  unfold Rsh.expandVars
  rw [run_getS_bind]
  rcases he : expandVarsIn s.ctx c with _ | c2
  · exact ⟨_, rfl, nofun, fun _ h => (nomatch h), nofun⟩
  · rw [unwrapM_some]
    show ∃ o, Rsh.evalWords w rec c2 s = (o, s) ∧ o ≠ .deep ∧ (∀ img, o ≠ .execed img) ∧ ∀ c', o = .ok c' → c'.name = c.name
    unfold expandVarsIn at he
    dsimp only at he
    obtain ⟨pre, _, rfl⟩ := Option.map_eq_some_iff.1 he
    have hn : expandWord s.ctx c.name = c.name := expandWord_of_head h1
    have hw : ∀ ws : List Str, (∀ x ∈ ws, '$' ∉ x ∧ '`' ∉ x) → ws.map (expandWord s.ctx) = ws := by
      intro ws h
      rw [List.map_congr_left (g := id), List.map_id]
      intro x hx
      unfold expandWord
      split
      · exact absurd List.mem_cons_self (h _ hx).1
      · rfl
    unfold Rsh.evalWords
    simp only [hn]
    by_cases e : c.name = []
    · rw [if_pos e]; exact ⟨_, rfl, nofun, fun _ h => (nomatch h), fun c' h => by cases h; rfl⟩
    rw [if_neg e, h2]
    have h5 := h4.resolve_left e
    simp only [Bool.false_eq_true, if_false]
    rw [run_pure_bind, h5, unwrapM_some, run_pure_bind]
    have e6 : Rsh.evalNameWords w rec [c.name] s = (.ok [c.name], s) := by
      unfold Rsh.evalNameWords
      rw [h3]
      rfl
    rw [run_bind_ok e6]
    obtain ⟨p0, name, sfx⟩ := c
    cases sfx with
    | none => exact ⟨_, rfl, nofun, fun _ h => (nomatch h), fun c' h => by cases h; rfl⟩
    | some sf =>
      dsimp only [Option.map_some]
      have hl' : ∀ x ∈ sf.word, '$' ∉ x ∧ '`' ∉ x := hl
      rw [hw _ hl']
      split
      · exact ⟨_, rfl, nofun, fun _ h => (nomatch h), fun c' h => by cases h; rfl⟩
      · obtain ⟨v, hv⟩ := Inner.evalSuffixWords_plain (w := w) (rec := rec) sf.word hl' s
        rw [run_bind_ok hv]
        exact ⟨_, rfl, nofun, fun _ h => (nomatch h), fun c' h => by cases h; rfl⟩

/-- A program or function of rank at most `k`. -/
def Callee (rank : Str → Nat) (k : Nat) (c : SimpleCommand) : Prop := ':' ∉ c.name ∧ rank c.name ≤ k

theorem evalSimple {c : SimpleCommand} (hc : callLevel rank k c = true) {s : Sh} (hs : Ranked rank s) :
    Ample rank (Rsh.evalSimple w rec c s) ∧
      ∀ q s1, Rsh.evalSimple w rec c s = (.ok (some q), s1) → Callee rank k q.2 := by
  obtain ⟨h1, h2, h3⟩ := callLevel_iff hc
  obtain ⟨o, ho, hd, _, hn⟩ := expandCommand (w := w) (rec := rec) (stable_of hc) h2 hs.aliases
  unfold Rsh.evalSimple
  by_cases hb : isBuiltin c.name = true
  · rw [if_pos hb]
    refine ⟨bindAt ?_ fun _ s1 _ h => pure _ s1 h, fun q s1 h => ?_⟩
    · unfold Rsh.evalBuiltin
      refine bindAt (by rw [ho]; exact ⟨hd, hs⟩) fun c' s1 h hs1 => ?_
      rw [ho] at h
      cases h
      exact callBuiltin (by rw [hn _ rfl]; exact h1) _ hs1
    · obtain ⟨_, _, _, h⟩ := bind_ok_iff.1 h
      cases h
  · rw [if_neg hb]
    have h4 := h3.resolve_left hb
    refine ⟨bindAt (by rw [ho]; exact ⟨hd, hs⟩) fun c' s1 _ hs1 => bind (unwrapM _ _) (fun _ => pure _) s1 hs1, fun q s1 h => ?_⟩
    obtain ⟨c', s2, h5, h6⟩ := bind_ok_iff.1 h
    rw [ho] at h5
    cases h5
    obtain ⟨_, _, _, h7⟩ := bind_ok_iff.1 h6
    cases h7
    exact ⟨by rw [hn _ rfl]; exact h4.1.2, by rw [hn _ rfl]; exact h4.2⟩

theorem evalCommand {c : Command} (hc : cmdLevel rank k c = true) {s : Sh} (hs : Ranked rank s) :
    Ample rank (Rsh.evalCommand w rec c s) ∧
      ∀ q s1, Rsh.evalCommand w rec c s = (.ok (some q), s1) → Callee rank k q.2 := by
  cases c with
  | simple c => exact evalSimple (by simpa [cmdLevel] using hc) hs
  | compound c r =>
    unfold Rsh.evalCommand
    exact ⟨throwE _ s hs, fun q s1 h => by cases h⟩
  | funcDef f b =>
    simp only [cmdLevel, Bool.and_eq_true, decide_eq_true_eq] at hc
    unfold Rsh.evalCommand
    refine ⟨bind (addFunctionM hc.1 hc.2) (fun _ => pure _) s hs, fun q s1 h => ?_⟩
    obtain ⟨_, _, _, h⟩ := bind_ok_iff.1 h
    cases h

theorem evalCommands {cs : List Command} (hc : cmdsLevel rank k cs = true) {s : Sh} (hs : Ranked rank s) :
    Ample rank (Rsh.evalCommands w rec cs s) ∧
      ∀ ps s1, Rsh.evalCommands w rec cs s = (.ok ps, s1) → ∀ q ∈ ps, Callee rank k q.2 := by
  induction cs generalizing s with
  | nil => exact ⟨⟨nofun, hs⟩, fun ps s1 h => by cases h; simp⟩
  | cons c cs ih =>
    simp only [cmdsLevel, Bool.and_eq_true] at hc
    obtain ⟨h1, h2⟩ := evalCommand (w := w) (rec := rec) hc.1 hs
    unfold Rsh.evalCommands
    refine ⟨bindAt h1 fun o s1 h hs1 => ?_, fun ps s1 h => ?_⟩
    · cases o with
      | none => exact pure _ s1 hs1
      | some q => exact bindAt (ih hc.2 hs1).1 fun _ s2 _ hs2 => pure _ s2 hs2
    · obtain ⟨o, s2, h3, h4⟩ := bind_ok_iff.1 h
      cases o with
      | none => cases h4; simp
      | some q =>
        obtain ⟨rest, s3, h5, h6⟩ := bind_ok_iff.1 h4
        cases h6
        rw [h3] at h1
        intro q' hq
        rcases List.mem_cons.1 hq with rfl | hq
        · exact h2 _ _ h3
        · exact (ih hc.2 h1.2).2 _ _ h5 q' hq

theorem setParams (i : Nat) (as : List Str) : Roomy rank (Rsh.setParams i as) := by
  have := addVarContext (rank := rank)
  induction as generalizing i with
  | nil => exact pure _
  | cons p a ih => unfold Rsh.setParams; roomy

variable (hrec : ∀ i, i < k → ∀ l, listLevel rank i l = true → Roomy rank (rec l))

include hrec in
theorem callFunction {c : SimpleCommand} (hc : Callee rank k c) : Roomy rank (Rsh.callFunction rec c) := by
  have h0 : Roomy rank (Rsh.evalFunction rec c) := by
    intro s hs
    unfold Rsh.evalFunction
    rw [run_getS_bind]
    cases hf : s.ctx.getFunction c.name with
    | none => exact throwE _ s hs
    | some b =>
      have hu : Unqualified c.name := fun a b e => hc.1 (by rw [e]; simp)
      rw [CtxMgr.getFunction_unqualified _ hu] at hf
      obtain ⟨id, _, hf⟩ := List.exists_of_findSome?_eq_some hf
      obtain ⟨hp, hb⟩ := hs.functions id c.name b hf
      have hr := hc.2
      have h1 : Roomy rank (evalCompound rec b.cc) := by
        obtain ⟨cc, io⟩ := b
        cases cc with
        | braceGroup l =>
          have := hrec (rank c.name - 1) (by omega) l (by simpa [bodyLevel, groupLevel] using hb)
          show Roomy rank (evalCompound rec (.braceGroup l))
          unfold evalCompound; roomy
        | unsupported => exact panicM _
      have h2 := addVarContext (rank := rank)
      have h3 := setParams (rank := rank)
      have h4 := popContext (rank := rank)
      have h5 := pushContextNew (rank := rank)
      refine (?_ : Roomy rank (α := Unit) _) s hs
      clear hrec
      roomy
  clear hrec
  unfold Rsh.callFunction; roomy

include hrec in
theorem runFunctions {ps : List (Process × SimpleCommand)} (hp : ∀ q ∈ ps, Callee rank k q.2) :
    Roomy rank (Rsh.runFunctions rec ps) := by
  induction ps with
  | nil => exact pure _
  | cons q ps ih =>
    obtain ⟨p, c⟩ := q
    have h1 := callFunction hrec (hp _ List.mem_cons_self)
    have h2 := ih fun q hq => hp q (List.mem_cons_of_mem _ hq)
    clear hrec hp ih
    unfold Rsh.runFunctions; roomy

theorem dup2U (a b : Int) : Roomy rank (Rsh.dup2U a b) := by
  refine stateOnly fun s => ?_
  unfold Rsh.dup2U
  split
  · exact ⟨rfl, rfl, nofun⟩
  · split <;> exact ⟨rfl, rfl, nofun⟩

theorem openU (ty : RedirectType) (f : Str) : Roomy rank (Rsh.openU w ty f) := by
  refine stateOnly fun s => ?_
  unfold Rsh.openU
  split <;> exact ⟨rfl, rfl, nofun⟩

theorem evalRedirects (rs : List IoRedirect) : Roomy rank (Rsh.evalRedirects w rs) := by
  have := dup2U (rank := rank)
  have := openU (rank := rank) (w := w)
  induction rs with
  | nil => exact pure _
  | cons r rs ih => unfold Rsh.evalRedirects evalRedirect1; roomy

theorem evalAssignments (l : List Str) : Roomy rank (Rsh.evalAssignments l) := by
  have : ∀ a b, Roomy rank (setEnv a b) := fun a b => by
    refine stateOnly fun s => ?_
    unfold setEnv
    split <;> exact ⟨rfl, rfl, nofun⟩
  induction l with
  | nil => exact pure _
  | cons a l ih => unfold Rsh.evalAssignments; roomy

include hrec in
theorem forkLoop {ps : List (Process × SimpleCommand)} (hp : ∀ q ∈ ps, Callee rank k q.2) (b : Bool) (id total count : Nat)
    (pip : Int × Int) (prev : Int) : Roomy rank (Rsh.forkLoop w rec b id total ps count pip prev) := by
  have := pipeM (rank := rank) (w := w)
  have := closeU (rank := rank)
  have := closeM (rank := rank)
  have := modJc (rank := rank)
  have := dup2U (rank := rank)
  have := evalRedirects (rank := rank) (w := w)
  have := evalAssignments (rank := rank)
  have := tempExecve (rank := rank) (w := w)
  induction ps generalizing count pip prev with
  | nil => exact pure _
  | cons q ps ih =>
    obtain ⟨p, c⟩ := q
    have h1 := callFunction hrec (hp _ List.mem_cons_self)
    have h2 := ih fun q hq => hp q (List.mem_cons_of_mem _ hq)
    clear hrec hp ih
    have h3 : ∀ pip prev, Roomy rank (pipelineChild w rec b id pip prev p c) := by
      intro pip prev
      unfold pipelineChild evalPrefixSuffix; roomy
    unfold Rsh.forkLoop; roomy

theorem afterFork (b : Bool) (id count : Nat) : Roomy rank (Rsh.afterFork w b id count) := by
  have := deleteJobM (rank := rank)
  have := waitForJob (rank := rank) (w := w)
  unfold Rsh.afterFork; roomy

include hrec in
theorem evalPipeline {pl : Pipeline} (hp : pipeLevel rank k pl = true) : Roomy rank (Rsh.evalPipeline w rec pl) := by
  have h1 := afterFork (rank := rank) (w := w)
  have h4 := createJobM (rank := rank)
  obtain ⟨neg, cs, bg⟩ := pl
  intro s hs
  unfold Rsh.evalPipeline
  refine bindAt (interruptsOff s hs) fun _ s1 _ hs1 => ?_
  obtain ⟨h5, h6⟩ := evalCommands (w := w) (rec := rec) (by simpa [pipeLevel] using hp) hs1
  refine bindAt h5 fun ps s2 h hs2 => ?_
  have h7 := h6 ps s2 h
  refine ite (pure _) ?_ s2 hs2
  intro s3 hs3
  have h8 := runFunctions hrec h7
  dsimp only
  split
  · rw [run_pure_bind]
    have h10 := forkLoop (w := w) hrec h7
    refine (?_ : Roomy rank (α := Int) _) s3 hs3
    clear hrec hp h h6 h7 h8
    roomy
  · refine bindAt (h8 s3 hs3) fun qs s4 h hs4 => ?_
    have h10 := forkLoop (w := w) hrec fun q hq => h7 q (runFunctions_sub h q hq)
    refine (?_ : Roomy rank (α := Int) _) s4 hs4
    clear hrec hp h h6 h7 h8
    roomy

include hrec in
theorem evalAndOr {a : AndOr} (ha : chainLevel rank k a = true) : Roomy rank (Rsh.evalAndOr w rec a) := by
  fun_induction Rsh.evalAndOr w rec a with
  | case1 c p => exact evalPipeline hrec (by simpa [chainLevel] using ha)
  | case2 l c p ih =>
    simp only [chainLevel, Bool.and_eq_true] at ha
    have h1 := evalPipeline (w := w) hrec ha.2
    have h2 := ih ha.1
    clear ha ih hrec
    roomy

include hrec in
theorem evalListFrom (st : Int) {l : List AndOr} (hl : listLevel rank k l = true) :
    Roomy rank (Rsh.evalListFrom w rec st l) := by
  induction l generalizing st with
  | nil => exact pure _
  | cons a as ih =>
    simp only [listLevel, Bool.and_eq_true] at hl
    have h1 := evalAndOr (w := w) hrec hl.1
    have h2 := fun st => ih st hl.2
    clear hl ih hrec
    unfold Rsh.evalListFrom; roomy

theorem evalFuel (n : Nat) : ∀ j, j < n → ∀ l, listLevel rank j l = true → Roomy rank (Rsh.evalFuel w n l) := by
  induction n with
  | zero => exact fun j h => absurd h (Nat.not_lt_zero j)
  | succ n ih => exact fun j hj l hl => evalListFrom (fun i hi l' => ih i (by omega) l') (-1) hl

theorem evalTop {n : Nat} (hn : k < n) {t : Str} {cc : CompleteCommand} (hp : parse t = some cc) (ht : Level rank k t) :
    Roomy rank (Rsh.evalTop w n cc) := by
  unfold Rsh.evalTop Rsh.evalCC
  split
  · next l =>
    unfold Level at ht
    rw [hp] at ht
    exact evalFuel n k hn l ht
  · exact pure _

theorem interactiveLine {n : Nat} (hn : k < n) {t : Str} (ht : Level rank k t) : Roomy rank (Rsh.interactiveLine w n t) := by
  unfold Rsh.interactiveLine
  refine ite (pure _) ?_
  split
  · exact printlnM _
  · next cc h =>
    have := evalTop (w := w) hn h ht
    clear ht hn
    roomy

theorem scriptLine {n : Nat} (hn : k < n) {t : Str} (ht : Level rank k t) : Roomy rank (Rsh.scriptLine w n t) := by
  unfold Rsh.scriptLine
  cases hp : parse t with
  | none => exact fun s hs => ⟨nofun, hs⟩
  | some cc =>
    have := evalTop (w := w) hn hp ht
    clear ht hn hp
    show Roomy rank (Pure.pure cc >>= fun cc => Rsh.tryE (Rsh.evalTop w n cc) >>= fun _ => Pure.pure ())
    rw [pure_bind]
    roomy

theorem readStartup {n : Nat} (hn : k < n) {p : Str} (hf : ∀ tr t, w.readFile tr p = .text t → Level rank k t) :
    Roomy rank (Rsh.readStartup w n p) := by
  unfold Rsh.readStartup Rsh.readFileM
  intro s hs
  rw [bind_assoc, run_getS_bind, bind_assoc]
  refine bindAt (emit _ s hs) fun _ s1 _ hs1 => ?_
  rw [run_pure_bind]
  cases hr : w.readFile s.trace p with
  | missing => exact pure _ s1 hs1
  | notUtf8 => exact printlnM _ s1 hs1
  | text t =>
    dsimp only
    cases hc : parse t with
    | none => exact printlnM _ _ hs1
    | some cc =>
      have h2 := evalTop (w := w) hn hc (hf _ _ hr)
      refine (?_ : Roomy rank (α := Unit) _) _ hs1
      clear hf hn hr hc
      roomy

theorem deliver (g : Nat) : Roomy rank (Rsh.deliver w g) := by
  have h1 := waitForJob (rank := rank) (w := w)
  have h2 := deleteJobM (rank := rank)
  have h3 := modJc (rank := rank)
  have h4 := waitpidM (rank := rank)
  have h5 := onSigOther (rank := rank) (w := w)
  have h6 : ∀ id st, Roomy rank (Rsh.waitForJobSigchld w id st) := by
    intro id st; unfold Rsh.waitForJobSigchld; roomy
  have h7 : ∀ pid st msg, Roomy rank (sigChldWith.go w pid st msg) := by
    intro pid st msg
    unfold sigChldWith.go; roomy
  have h8 : ∀ r, Roomy rank (sigChldWith w r) := by intro r; unfold sigChldWith; roomy
  unfold Rsh.deliver Rsh.onSigchld; roomy

theorem interactiveLoop {n : Nat} (hn : k < n) {ins : List SessionIn} (hi : ∀ t, .line t ∈ ins → Level rank k t) :
    Roomy rank (Rsh.interactiveLoop w n ins) := by
  have h1 := expandVar (rank := rank)
  have h2 := saveHistory (rank := rank) (w := w)
  have h3 := deliver (rank := rank) (w := w)
  induction ins with
  | nil => exact h2
  | cons i ins ih =>
    have h4 := ih fun t ht => hi t (List.mem_cons_of_mem _ ht)
    have h5 : ∀ t, i = .line t → Roomy rank (Rsh.interactiveLine w n t) := fun t e =>
      interactiveLine hn (hi t (e ▸ List.mem_cons_self))
    clear hi ih hn
    cases i with
    | line t =>
      have h6 := h5 t rfl
      clear h5
      unfold Rsh.interactiveLoop; roomy
    | _ =>
      clear h5
      unfold Rsh.interactiveLoop; roomy

theorem scriptLines {n : Nat} (hn : k < n) (j : Nat) {ls : List Str} (hl : ∀ l ∈ ls, Level rank k l) :
    Roomy rank (Rsh.scriptLines w n j ls) := by
  have h0 : Roomy rank (Rsh.scriptEof w n j) := by
    have h1 : Roomy rank (Rsh.scriptLine w n []) := scriptLine hn (by unfold Level; rw [show parse [] = some none from rfl]; trivial)
    clear hn hl
    induction j with
    | zero => exact hangM
    | succ j ih => unfold Rsh.scriptEof; roomy
  induction ls with
  | nil => unfold Rsh.scriptLines; exact h0
  | cons l ls ih =>
    have h1 := scriptLine (w := w) hn (hl l List.mem_cons_self)
    have h2 := ih fun l hm => hl l (List.mem_cons_of_mem _ hm)
    clear hl ih hn
    unfold Rsh.scriptLines; roomy

theorem addVarAt (set : Str) (pos : Nat) : Roomy rank (Rsh.addVarAt set pos) := by
  intro s ht
  unfold Rsh.addVarAt
  rw [run_getS_bind]
  refine unwrapCtx ht fun m h => ?_
  unfold CtxMgr.addVarPos at h
  rcases hc : s.ctx.atPos pos with _ | id
  · rw [hc] at h; cases h
  · rw [hc] at h; exact Calm.mapSet_funs h

theorem argLoop (as : List Str) (st : ArgState) : Roomy rank (Rsh.argLoop as st) := by
  have h1 := addVarAt (rank := rank)
  have h2 : ∀ a, Roomy rank (setScriptName a) := fun a => modS fun _ => ⟨rfl, rfl⟩
  have h3 : ∀ a i, Roomy rank (setInputArgs a i) := fun a i => h1 _ _
  induction as generalizing st with
  | nil => exact pure _
  | cons a as ih => unfold Rsh.argLoop; roomy

theorem readFrom (p : Str) {s s' : Sh} {r : FileRead} (h : readFileM w p s = (.ok r, s')) : r = w.readFile s.trace p := by
  unfold readFileM at h
  cases h
  rfl

theorem mainM {n : Nat} (hn : k < n) (j : Nat) {args : List Str} {ins : List SessionIn}
    (hi : ∀ t, .line t ∈ ins → Level rank k t) (ha : ∀ i, Level rank k (joinSp (args.drop i)))
    (hf : ∀ tr p t, w.readFile tr p = .text t → Level rank k t ∧ ∀ l ∈ linesIncl t, Level rank k l) :
    Roomy rank (Rsh.mainM w n j args ins) := by
  have h1 := fun p => readStartup (p := p) hn fun tr t h => (hf tr p t h).1
  have h3 := interactiveLoop (w := w) hn hi
  have h4 : ∀ g, Roomy rank (Rsh.setSignal g) := by intro g; unfold Rsh.setSignal; roomy
  have h5 : Roomy rank Rsh.setArg0 := bind getS fun _ => addVarAt _ _
  have h6 : ∀ name, Roomy rank (Rsh.scriptLoop w n j name) := by
    intro name s hs
    unfold Rsh.scriptLoop
    refine bindAt ?_ fun r s1 h hs1 => ?_
    · exact (bind getS fun _ => bind (emit _) fun _ => pure _) s hs
    · cases hr : r with
      | missing => exact panicM _ s1 hs1
      | notUtf8 => exact panicM _ s1 hs1
      | text t => exact scriptLines hn j (hf _ _ t ((readFrom name h).symm.trans hr)).2 s1 hs1
  have h7 : ∀ i, Roomy rank (Rsh.readFromArgs w n (joinSp (args.drop i))) := fun i => scriptLine hn (ha i)
  have h8 := argLoop (rank := rank)
  have h9 := pushContextNew (rank := rank)
  intro s hs
  unfold Rsh.mainM
  have h10 : Roomy rank (parseArgs w args) := by
    clear hi ha hf hn h7 h1 h3 h6
    unfold parseArgs; roomy
  refine bindAt (h10 s hs) fun inp s1 h hs1 => ?_
  cases inp with
  | none =>
    refine (?_ : Roomy rank (α := Unit) _) s1 hs1
    clear hi ha hf hn h7 h h10
    roomy
  | some i =>
    obtain ⟨q, rfl⟩ : ∃ q, i = joinSp (args.drop q) := by
      unfold parseArgs at h
      split at h
      · cases h
      · obtain ⟨st, s2, h11, h12⟩ := bind_ok_iff.1 h
        split at h12
        · cases h12
          exact ⟨_, rfl⟩
        · cases h12
    refine (?_ : Roomy rank (α := Unit) _) s1 hs1
    have h11 := h7 q
    clear hi ha hf hn h7 h h10
    roomy

theorem init (rank : Str → Nat) (root : Bool) (ppid pid : Nat) (cwd : Str) (env : AMap Str) (waits : List WRes) :
    Ranked rank (initSh root ppid pid cwd env waits) := by
  refine ⟨fun id f b h => ?_, rfl⟩
  have : ((initSh root ppid pid cwd env waits).ctx.heap id).funcs = [] := by
    show ((CtxMgr.init root ppid pid cwd env).heap id).funcs = []
    unfold CtxMgr.init
    dsimp only
    split <;> rfl
  unfold Ctx.getFunction at h
  rw [this] at h
  cases h

end Roomy

/-- C155, one line: if no function of the shell calls itself, directly or through others, and a line uses commands of
rank `k` at most, then `k + 1` levels of nested evaluation are enough for it, at the prompt, in a script or after `-c`;
and the functions it defines keep the next lines from running without end. -/
theorem C155_line (rank : Str → Nat) (k : Nat) (w : World) {t : Str} (ht : Level rank k t) {s : Sh} (hs : Ranked rank s) :
    ((interactiveLine w (k + 1) t s).1 ≠ .deep ∧ Ranked rank (interactiveLine w (k + 1) t s).2) ∧
    ((scriptLine w (k + 1) t s).1 ≠ .deep ∧ Ranked rank (scriptLine w (k + 1) t s).2) ∧
    ((readFromArgs w (k + 1) t s).1 ≠ .deep ∧ Ranked rank (readFromArgs w (k + 1) t s).2) :=
  ⟨Roomy.interactiveLine (Nat.lt_succ_self k) ht s hs, Roomy.scriptLine (Nat.lt_succ_self k) ht s hs,
    Roomy.scriptLine (Nat.lt_succ_self k) ht s hs⟩

/-- C155, so what such a line does is independent of the room there is beyond that. -/
theorem C155_same (rank : Str → Nat) (k n : Nat) (hn : k < n) (w : World) {t : Str} (ht : Level rank k t) {s : Sh}
    (hs : Ranked rank s) : interactiveLine w n t s = interactiveLine w (k + 1) t s :=
  (C101_line w (k + 1) n hn t s).1 (C155_line rank k w ht hs).1.1

/-- C155, a whole run of the shell, from its arguments to its end: if the lines typed, the start-up files, the script
and the text after `-c` use commands of rank `k` at most, then `k + 1` levels are enough. -/
theorem C155_run (rank : Str → Nat) (k j : Nat) (w : World) (args : List Str) (ins : List SessionIn)
    (hi : ∀ t, .line t ∈ ins → Level rank k t) (ha : ∀ i, Level rank k (joinSp (args.drop i)))
    (hf : ∀ tr p t, w.readFile tr p = .text t → Level rank k t ∧ ∀ l ∈ linesIncl t, Level rank k l)
    (root : Bool) (ppid pid : Nat) (cwd : Str) (env : AMap Str) (waits : List WRes) :
    (mainM w (k + 1) j args ins (initSh root ppid pid cwd env waits)).1 ≠ .deep := by
  exact (Roomy.mainM (rank := rank) (Nat.lt_succ_self k) j hi ha hf _ (Roomy.init _ _ _ _ _ _ _)).1

/-- The ranks of the example: `g` calls `f`, `f` calls programs. -/
def Spec.exampleRank (x : Str) : Nat := if x = cs!"g" then 2 else if x = cs!"f" then 1 else 0

/-- Such lines, and one that is not: `f` would call `g` again. -/
example : (∀ t ∈ [cs!"f() { a | b; }", cs!"g() { f x && f y; cd /; }", cs!"g; f | a &"], Level exampleRank 2 t) ∧
    ¬ Level exampleRank 2 (cs!"f() { g; }") := by decide +kernel

/-- The hypotheses are met by the shell with these two functions, and the line `g` ends in it. -/
example (w : World) : ∃ s, Ranked exampleRank s ∧ (s.ctx.getFunction (cs!"g")).isSome = true ∧
    (interactiveLine w 3 (cs!"g; f x") s).1 ≠ .deep := by
  let s0 := initSh false 1 2 (cs!"/") [] []
  have h0 : Ranked exampleRank s0 := Roomy.init _ _ _ _ _ _ _
  have h1 := (C155_line exampleRank 2 (demoWorld []) (t := cs!"f() { a | b; }") (by decide +kernel) h0).1.2
  have h2 := (C155_line exampleRank 2 (demoWorld []) (t := cs!"g() { f x && f y; cd /; }") (by decide +kernel) h1).1.2
  exact ⟨_, h2, by decide +kernel, (C155_line exampleRank 2 w (by decide +kernel) h2).1.1⟩

/-- The bound is reached: `g` of rank 2 needs three levels. -/
example : let s := demo [cs!"f() { a; }", cs!"g() { f; }"] [.st (.exited 100 0)]
    outcome (interactiveLine (demoWorld []) 2 (cs!"g") s).1 = .deep ∧
    outcome (interactiveLine (demoWorld []) 3 (cs!"g") s).1 = .ok := by
  decide +kernel

end Rsh
