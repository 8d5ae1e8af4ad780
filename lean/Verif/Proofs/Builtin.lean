import Verif.Proofs.Start
import Verif.Proofs.Typing

/-!
# Lines with one builtin command
-/

namespace Rsh

open Spec

/-- Run a command and print its error message. -/
def reportM (m : M Unit) : M Unit := do
  match ← tryE m with
  | .ok _ => pure ()
  | .error e => printlnM e

theorem reportM_ok {m : M Unit} {s s' : Sh} (h : m s = (.ok (), s')) : reportM m s = (.ok (), s') := by
  unfold reportM
  rw [run_bind_ok (run_tryE_ok h)]
  rfl

theorem reportM_err {m : M Unit} {s s' : Sh} {e : Str} (h : m s = (.err e, s')) :
    reportM m s = printlnM e s' := by
  unfold reportM
  rw [run_bind_ok (run_tryE_err h)]

/-- The words of a command without substitutions. -/
theorem evalSuffixWords_all (w : World) (rec : List AndOr → M Int) {m : CtxMgr} {ts vs : List Str}
    (h : Arrive (fun n => (m.getVar n).map Var.value) ts vs) (s : Sh) :
    evalSuffixWords w rec (ts.map (expandWord m)) s = (.ok vs, s) := by
  induction h with
  | nil => rfl
  | cons h _ ih =>
    rw [List.map_cons]
    rw [← expandWord_eq] at h
    rw [evalSuffixWords_cons w rec h, run_bind_ok ih]
    rfl

theorem forall2_nil_iff {get : Str → Option Str} {a b : List Str} (h : Arrive get a b) :
    a = [] ↔ b = [] := by
  cases h <;> simp

theorem expandCommand_words (w : World) (rec : List AndOr → M Int) {c : SimpleCommand} {vs : List Str} {s : Sh}
    (hname : PlainWord c.name) (hal : s.aliases.get c.name = none)
    (hpre : ∀ p, c.pre = some p → ∀ a ∈ p.assignment, '$' ∉ a)
    (hv : Arrive (valueOf s) ((c.suffix.map Suffix.word).getD []) vs) :
    expandCommand w rec c s =
      (.ok ⟨c.pre, c.name, some ⟨if vs = [] then [] else (c.suffix.map Suffix.ioRedirect).getD [], vs⟩⟩, s) := by
  obtain ⟨pre, name, sf⟩ := c
  unfold expandCommand
  rw [run_bind_ok (aliasLookup_none hal),
    run_bind_ok (expandVars_run hpre (plainWord_head hname (by decide)) s)]
  unfold evalWords
  rw [if_neg hname.1]
  have e1 : ¬ startsWith ['\''] name = true := fun e =>
    plainWord_head hname (c := '\'') (by decide) ((startsWith_single _ _).1 e)
  simp only [e1, Bool.false_eq_true, if_false]
  rw [run_pure_bind, splitQts_plain hname, unwrapM_some, run_pure_bind,
    run_bind_ok (evalNameWords_one w rec (plainWord_head hname (by decide)) s)]
  cases sf with
  | none => cases hv; rfl
  | some sf =>
    obtain ⟨redirs, words⟩ := sf
    have hv : Arrive (valueOf s) words vs := hv
    simp only [Option.map_some]
    cases words with
    | nil => cases hv; rfl
    | cons a as =>
      rw [if_neg (by simp)]
      rw [run_bind_ok (evalSuffixWords_all w rec (m := s.ctx) hv s)]
      rw [if_neg (by intro e; rw [← forall2_nil_iff hv] at e; cases e)]
      rfl

theorem builtin_plain {n : Str} (h : n ∈ builtins) (hn : n ≠ []) : PlainWord n := by
  have : ∀ n ∈ builtins, n ≠ [] → PlainWord n := by decide
  exact this n h hn

theorem evalPipeline_builtin (w : World) (rec : List AndOr → M Int) {c c' : SimpleCommand} (bang b : Bool)
    (hb : c.name ∈ builtins) {s : Sh}
    (hx : expandCommand w rec c { s with masked := true } = (.ok c', { s with masked := true })) :
    evalPipeline w rec (.mk bang [.simple c] b) s =
      (do callBuiltin w rec c'; pure 0 : M Int) { s with masked := true } := by
  unfold evalPipeline
  rw [show (interruptsOff >>= fun _ => _ : M Int) s = _ from rfl]
  rw [run_bind_ok (show interruptsOff s = (.ok (), { s with masked := true }) from rfl)]
  have e : evalCommands w rec (Pipeline.seq (.mk bang [.simple c] b)) { s with masked := true } =
      (do callBuiltin w rec c'; pure [] : M (List (Process × SimpleCommand))) { s with masked := true } := by
    show evalCommands w rec [.simple c] _ = _
    have e1 : evalCommands w rec [.simple c] = (do
        match ← evalSimple w rec c with
        | none => pure []
        | some pc => do
          let rest ← evalCommands w rec []
          pure (pc :: rest)) := rfl
    rw [e1]
    unfold evalSimple evalBuiltin
    rw [if_pos ((isBuiltin_iff _).2 hb), bind_assoc, bind_assoc, run_bind_ok hx, run_bind, run_bind]
    rcases callBuiltin w rec c' { s with masked := true } with ⟨o, s'⟩
    cases o <;> rfl
  rw [run_bind, e, run_bind, run_bind]
  rcases callBuiltin w rec c' { s with masked := true } with ⟨o, s'⟩
  cases o <;> rfl

theorem interactiveLine_pipeline {w : World} {n : Nat} {input : Str} {pl : Pipeline}
    (h : parse input = some (some [.mk none none pl])) {s s1 : Sh} (hne : input ≠ []) {m : M Unit}
    (he : evalPipeline w (evalFuel w n) pl s = (do m; pure 0 : M Int) s1) :
    interactiveLine w (n + 1) input s = reportM m s1 := by
  have e1 : (evalTop w (n + 1) (some [.mk none none pl]) : M Int) s = evalPipeline w (evalFuel w n) pl s := by
    show evalListFrom w (evalFuel w n) (-1) [.mk none none pl] s = _
    unfold evalListFrom evalAndOr evalListFrom
    rw [run_bind]
    rcases evalPipeline w (evalFuel w n) pl s with ⟨o, s1⟩
    cases o <;> rfl
  unfold interactiveLine reportM
  rw [if_neg hne, h]
  simp only
  rw [run_bind, run_tryE, e1, he, run_bind, run_bind, run_tryE]
  rcases m s1 with ⟨o, s2⟩
  cases o <;> rfl

theorem interactiveLine_panic {w : World} {n : Nat} {input : Str} {pl : Pipeline}
    (h : parse input = some (some [.mk none none pl])) {s s1 : Sh} (hne : input ≠ []) {k : PanicKind}
    (he : evalPipeline w (evalFuel w n) pl s = (.panic k, s1)) :
    interactiveLine w (n + 1) input s = (.panic k, s1) := by
  have e1 : (evalTop w (n + 1) (some [.mk none none pl]) : M Int) s = (.panic k, s1) := by
    show evalListFrom w (evalFuel w n) (-1) [.mk none none pl] s = _
    unfold evalListFrom evalAndOr
    rw [run_bind_panic he]
  unfold interactiveLine
  rw [if_neg hne, h]
  simp only
  rw [run_bind, run_tryE, e1]

/-- A command whose words cannot be expanded ends the shell. -/
theorem evalPipeline_panic (w : World) (rec : List AndOr → M Int) {c : SimpleCommand} (bang b : Bool) {s : Sh}
    {k : PanicKind}
    (hx : expandCommand w rec c { s with masked := true } = (.panic k, { s with masked := true })) :
    evalPipeline w rec (.mk bang [.simple c] b) s = (.panic k, { s with masked := true }) := by
  unfold evalPipeline
  rw [run_bind_ok (show interruptsOff s = (.ok (), { s with masked := true }) from rfl)]
  refine run_bind_panic ?_ _
  show evalCommands w rec [.simple c] _ = _
  have e1 : evalCommands w rec [.simple c] = (do
      match ← evalSimple w rec c with
      | none => pure []
      | some pc => do
        let rest ← evalCommands w rec []
        pure (pc :: rest)) := rfl
  rw [e1]
  refine run_bind_panic ?_ _
  unfold evalSimple evalBuiltin
  split
  · rw [bind_assoc]; exact run_bind_panic hx _
  · exact run_bind_panic hx _

theorem TCmd.line_ok {c : TCmd} (h : c.Ok) : c.line.Ok := by
  intro d hd
  simp [TCmd.line, TLine.cmds, TPipe.cmds] at hd
  rw [hd]
  exact h

theorem TCmd.parse {c : TCmd} (h : c.Ok) :
    Rsh.parse c.line.text = some (some [.mk none none (.mk false [.simple c.command] false)]) :=
  parse_tline (TCmd.line_ok h)

theorem arrives_plain {get : Str → Option Str} {x : Str} (hx : PlainWord x) (t : Str) :
    Arrives (expansion get (x ++ t)) (x ++ t) := by
  have hh : ∀ {c : Char}, c ∈ special → (x ++ t).head? ≠ some c := by
    intro c hc
    obtain ⟨a, as, rfl⟩ : ∃ a as, x = a :: as := by
      cases x with
      | nil => exact absurd rfl hx.1
      | cons a as => exact ⟨a, as, rfl⟩
    exact plainWord_head hx hc
  have e1 : expansion get (x ++ t) = x ++ t := by
    unfold expansion
    split
    · rename_i e
      exact absurd (by rw [e]; rfl) (hh (c := '$') (by decide))
    · rfl
  rw [e1]
  unfold Arrives
  rw [if_neg (hh (by decide)), if_neg (hh (by decide))]

/-- A line with one builtin command. -/
theorem builtin_line (w : World) (n : Nat) {s : Sh} {c : TCmd} (hc : c.Ok) (hbefore : c.before = [])
    {name : Str} (hn : c.name = some (.plain name)) (hb : name ∈ builtins) (hne : name ≠ [])
    (hal : s.aliases.get name = none) {vs : List Str}
    (hv : Arrive (valueOf s) (wordsOf c.after) vs) :
    interactiveLine w (n + 1) c.line.text s =
      reportM (callBuiltin w (evalFuel w n)
        ⟨none, name, some ⟨if vs = [] then [] else redirsOf c.after, vs⟩⟩) { s with masked := true } := by
  refine interactiveLine_pipeline (TCmd.parse hc) (TLine.text_ne (TCmd.line_ok hc)) ?_
  refine evalPipeline_builtin w _ (c := c.command) false false ?_ ?_
  · simpa [TCmd.command, hn, Typed.text] using hb
  · have hcmd : c.command = ⟨none, name, if c.after = [] then none else some ⟨redirsOf c.after, wordsOf c.after⟩⟩ := by
      simp [TCmd.command, hbefore, hn, Typed.text]
    rw [hcmd]
    rw [expandCommand_words w (evalFuel w n) (builtin_plain hb hne) hal (by simp) (vs := vs)]
    · by_cases ha : c.after = []
      · rw [ha] at hv
        cases hv
        simp
      · simp [ha]
    · by_cases ha : c.after = []
      · rw [ha] at hv
        cases hv
        simp [ha]
        exact .nil
      · rw [if_neg ha]
        exact hv

/-- A line of assignments. -/
theorem assign_line (w : World) (n : Nat) {s : Sh} {c : TCmd} (hc : c.Ok) (hn : c.name = none)
    (hal : s.aliases.get [] = none) {as : List Str}
    (hx : (wordsOf c.before).mapM (expandAssign s.ctx) = some as) :
    interactiveLine w (n + 1) c.line.text s =
      reportM (bAssign ⟨some ⟨redirsOf c.before, as⟩, [], none⟩) { s with masked := true } := by
  have hcmd : c.command = ⟨some ⟨redirsOf c.before, wordsOf c.before⟩, [], none⟩ := by
    simp [TCmd.command, hn, (hc.some hn).1, (hc.some hn).2]
  have key : expandCommand w (evalFuel w n) c.command { s with masked := true } =
      (.ok ⟨some ⟨redirsOf c.before, as⟩, [], none⟩, { s with masked := true }) := by
    rw [hcmd]
    unfold expandCommand
    rw [run_bind_ok (aliasLookup_none (s := { s with masked := true }) hal)]
    unfold expandVars expandVarsIn
    rw [bind_assoc, run_getS_bind]
    simp only [hx]
    rfl
  refine interactiveLine_pipeline (TCmd.parse hc) (TLine.text_ne (TCmd.line_ok hc)) ?_
  refine evalPipeline_builtin w _ (c := c.command) false false ?_ key
  rw [hcmd]
  show ([] : Str) ∈ builtins
  decide

/-! ## Dispatch -/

theorem callBuiltin_cd (w : World) (rec : List AndOr → M Int) {c : SimpleCommand} (h : c.name = cs!"cd") :
    callBuiltin w rec c = bCd w c := by
  unfold callBuiltin
  rw [h]
  rfl

theorem callBuiltin_exit (w : World) (rec : List AndOr → M Int) {c : SimpleCommand} (h : c.name = cs!"exit") :
    callBuiltin w rec c = bExit w c := by
  unfold callBuiltin
  rw [h]
  rfl

theorem callBuiltin_return (w : World) (rec : List AndOr → M Int) {c : SimpleCommand} (h : c.name = cs!"return") :
    callBuiltin w rec c = bReturn c := by
  unfold callBuiltin
  rw [h]
  rfl

theorem callBuiltin_jobs (w : World) (rec : List AndOr → M Int) {c : SimpleCommand} (h : c.name = cs!"jobs") :
    callBuiltin w rec c = bJobs := by
  unfold callBuiltin
  rw [h]
  rfl

theorem callBuiltin_fg (w : World) (rec : List AndOr → M Int) {c : SimpleCommand} (h : c.name = cs!"fg") :
    callBuiltin w rec c = bFgBg w c := by
  unfold callBuiltin
  rw [h]
  rfl

theorem callBuiltin_bg (w : World) (rec : List AndOr → M Int) {c : SimpleCommand} (h : c.name = cs!"bg") :
    callBuiltin w rec c = bFgBg w c := by
  unfold callBuiltin
  rw [h]
  rfl

theorem callBuiltin_alias (w : World) (rec : List AndOr → M Int) {c : SimpleCommand} (h : c.name = cs!"alias") :
    callBuiltin w rec c = bAlias c := by
  unfold callBuiltin
  rw [h]
  rfl

theorem callBuiltin_unalias (w : World) (rec : List AndOr → M Int) {c : SimpleCommand} (h : c.name = cs!"unalias") :
    callBuiltin w rec c = bUnalias c := by
  unfold callBuiltin
  rw [h]
  rfl

theorem callBuiltin_export (w : World) (rec : List AndOr → M Int) {c : SimpleCommand} (h : c.name = cs!"export") :
    callBuiltin w rec c = bExport w rec c := by
  unfold callBuiltin
  rw [h]
  rfl

theorem callBuiltin_eval (w : World) (rec : List AndOr → M Int) {c : SimpleCommand} (h : c.name = cs!"eval") :
    callBuiltin w rec c = bEval w rec c := by
  unfold callBuiltin
  rw [h]
  rfl

theorem callBuiltin_unset (w : World) (rec : List AndOr → M Int) {c : SimpleCommand} (h : c.name = cs!"unset") :
    callBuiltin w rec c = bUnset c := by
  unfold callBuiltin
  rw [h]
  rfl

theorem callBuiltin_pwd (w : World) (rec : List AndOr → M Int) {c : SimpleCommand} (h : c.name = cs!"pwd") :
    callBuiltin w rec c = bPwd := by
  unfold callBuiltin
  rw [h]
  rfl

theorem callBuiltin_readonly (w : World) (rec : List AndOr → M Int) {c : SimpleCommand} (h : c.name = cs!"readonly") :
    callBuiltin w rec c = bReadonly c := by
  unfold callBuiltin
  rw [h]
  rfl

theorem callBuiltin_exec (w : World) (rec : List AndOr → M Int) {c : SimpleCommand} (h : c.name = cs!"exec") :
    callBuiltin w rec c = bExec w c := by
  unfold callBuiltin
  rw [h]
  rfl

theorem callBuiltin_source (w : World) (rec : List AndOr → M Int) {c : SimpleCommand} (h : c.name = cs!"source") :
    callBuiltin w rec c = bSource w rec c := by
  unfold callBuiltin
  rw [h]
  rfl

theorem callBuiltin_dot (w : World) (rec : List AndOr → M Int) {c : SimpleCommand} (h : c.name = cs!".") :
    callBuiltin w rec c = bSource w rec c := by
  unfold callBuiltin
  rw [h]
  rfl

end Rsh
