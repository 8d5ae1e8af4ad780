import Verif.Proofs.Call
import Verif.Proofs.Calls
import Verif.Proofs.External
import Verif.Proofs.Prompt
import Verif.Spec.Calls

/-!
# Properties C75, C77-C81: exit, assignments, eval, source, exec
-/

namespace Rsh

open Spec

/-! ## C75 -/

/-- C75: a line that begins with `exit` ends the shell, with the given status or that of the last
command; nothing else of the line is run and the history is saved, or a message says that this is not possible. -/
theorem C75_exit (w : World) (n : Nat) (s : Sh) (c : Call) (hc : c.Ok s) (hn : c.name = cs!"exit")
    (l : TLine) (hl : c.Begins l) (code : Int)
    (hcode : (c.args = [] ∧ code = s.exitStatus) ∨ (c.values.head? = some (intStr code) ∧ Code code)) :
    ∃ s', interactiveLine w (n + 1) l.text s = (.exit code, s') ∧
      s' = { s with masked := true, trace := s'.trace } ∧
      s'.trace = (if w.saveOk s.trace s.historyLoc then .saveHistory s.historyLoc
        else .eprint ((s.fds.get 2).map FdE.chan) (cs!"Could not save history.\n")) :: s.trace := by
  refine ⟨_, Call.begins w n hc hl (o := .exit code)
    (s1 := { s with
      masked := true
      trace := (if w.saveOk s.trace s.historyLoc then .saveHistory s.historyLoc
        else .eprint ((s.fds.get 2).map FdE.chan) (cs!"Could not save history.\n")) :: s.trace }) ?_ (by simp), rfl, rfl⟩
  rw [callBuiltin_exit _ _ (show (Call.simple c).name = _ from hn)]
  unfold bExit
  have hs : saveHistory w { s with masked := true } = (.ok (), { s with
      masked := true
      trace := (if w.saveOk s.trace s.historyLoc then .saveHistory s.historyLoc
        else .eprint ((s.fds.get 2).map FdE.chan) (cs!"Could not save history.\n")) :: s.trace }) := by
    unfold saveHistory
    rw [run_getS_bind]
    split <;> rfl
  rw [run_bind_ok hs]
  have hw : (Call.simple c).words = c.values := rfl
  rw [hw]
  rcases hcode with ⟨h1, rfl⟩ | ⟨h1, h2⟩
  · have : c.values = [] := by simp [Call.values, h1]
    rw [this]
    rfl
  · cases hv : c.values with
    | nil => rw [hv] at h1; cases h1
    | cons a as =>
      rw [hv] at h1
      simp only [List.head?_cons, Option.some.injEq] at h1
      subst h1
      simp only [parseI32_intStr h2, unwrapM_some, run_pure_bind]
      rfl

example : outcome (demoOut [cs!"exit 3 ; ls"]) = .exit 3 ∧ started (demo [cs!"exit 3 ; ls"]).trace = [] ∧
    outcome (demoOut [cs!"ls ; exit && ls"] [.st (.exited 100 7)]) = .exit 7 ∧
    (match (demo [cs!"exit 3 | ls"]).trace with | [.saveHistory _] => true | _ => false) = true := by
  decide +kernel

/-- A line as in `C75_exit`. -/
example : let c : Call := ⟨cs!"exit", [word (cs!"3")]⟩
    let l : TLine := ⟨⟨{ first := c.cmd, rest := [⟨[], some (.plain (cs!"ls")), []⟩] }, []⟩,
      [⟨{ first := ⟨[], some (.plain (cs!"ls")), []⟩ }, []⟩]⟩
    l.text = cs!" exit 3 | ls ; ls" ∧ c.values.head? = some (intStr 3) ∧ Code 3 := by
  refine ⟨by decide +kernel, by decide +kernel, by unfold Code; omega⟩

/-! ## C77 -/

/-- C77 fails: of several assignments only the first is performed. -/
theorem C77_counterexample :
    valueOf (demo [cs!"A=1 B=2"]) (cs!"A") = some (cs!"1") ∧ valueOf (demo [cs!"A=1 B=2"]) (cs!"B") = none := by
  decide +kernel

/-- What a line of assignments does: the first is performed, the others are not. -/
theorem C77_onlyFirst (w : World) (n : Nat) (s : Sh) (x : Str) (t : Typed) (rest : List Part)
    (hx : PlainWord x) (ht : t.Ok) (hrest : ∀ p ∈ rest, p.Ok) (hna : ∀ t, .arg t ∉ rest)
    (hal : s.aliases.get [] = none)
    (hdollar : ∀ a ∈ wordsOf (.assign x t :: rest), '$' ∉ a) :
    interactiveLine w (n + 1) (TCmd.line { before := .assign x t :: rest, name := none }).text s =
      interactiveLine w (n + 1) (TCmd.line { before := [.assign x t], name := none }).text s := by
  have h1 : TCmd.Ok { before := .assign x t :: rest, name := none } := by
    refine ⟨?_, ?_, by simp, by simp, by simp⟩
    · intro p hp
      rcases List.mem_cons.1 hp with rfl | hp
      · exact ⟨hx, ht⟩
      · exact hrest p hp
    · intro t' h
      rcases List.mem_cons.1 h with h | h
      · cases h
      · exact hna t' h
  have h2 : TCmd.Ok { before := [.assign x t], name := none } :=
    ⟨by simpa [Part.Ok] using ⟨hx, ht⟩, by simp, by simp, by simp, by simp⟩
  have h3 : ∀ a ∈ wordsOf [.assign x t], '$' ∉ a := by
    intro a ha
    simp only [wordsOf, List.mem_cons, List.not_mem_nil, or_false] at ha
    exact hdollar a (by rw [ha]; exact List.mem_cons_self)
  rw [assign_line w n h1 rfl hal (mapM_expandAssign hdollar), assign_line w n h2 rfl hal (mapM_expandAssign h3)]
  rfl

/-- C77, as far as it holds: a single assignment is performed.  (What is missing: all but the first of
several, see above; values with `=`, outer quotes in the middle and the like are the subject of other
properties.) -/
theorem C77_single_partial (w : World) (n : Nat) (s : Sh) (x v : Str) (hx : PlainWord x) (hv : PlainWord v)
    (hal : s.aliases.get [] = none) (hcolon : Unqualified x) (hkey : keyOk (x ++ '=' :: v) = true)
    (hst : s.ctx.stack ≠ []) (hro : ∀ b, s.ctx.getVar x = some b → b.readonly = false) :
    ∃ s', interactiveLine w (n + 1) (TCmd.line { before := [.assign x (.plain v)], name := none }).text s = (.ok (), s') ∧
      valueOf s' x = some v := by
  have hspec : ∀ {y : Str}, PlainWord y → ∀ {c : Char}, c ∈ special → c ∉ y := by
    intro y hy c hc h
    exact (hy.2.1 c h).2 hc
  have hd : '$' ∉ x ++ '=' :: v := by
    simp only [List.mem_append, List.mem_cons, not_or]
    exact ⟨hspec hx (by decide), by decide, hspec hv (by decide)⟩
  have hsp : ∀ q ∈ quotes, q ∈ special := by decide
  have hq : Unquoted v v := .inr ⟨fun q hq t e => hspec hv (hsp q hq) (by rw [e]; simp), rfl⟩
  have hl : ¬ LoneQuote v := fun ⟨q, hq, e⟩ => hspec hv (hsp q hq) (by rw [e]; simp)
  have h1 : TCmd.Ok { before := [.assign x (.plain v)], name := none } :=
    ⟨by simpa [Part.Ok, Typed.Ok] using ⟨hx, hv⟩, by simp, by simp, by simp, by simp⟩
  have h2 : ∀ a ∈ wordsOf [.assign x (.plain v)], '$' ∉ a := by
    intro a ha
    simp only [wordsOf, List.mem_cons, List.not_mem_nil, or_false] at ha
    rw [ha]
    exact hd
  obtain ⟨m1, t, pre, post, hadd, -, -, -, -, -, -, -, -, hget, -⟩ :=
    CtxMgr.assign_spec s.ctx x v v (hspec hx (by decide)) hcolon hkey (hspec hv (by decide)) hq hl hst hro
  rw [assign_line w n h1 rfl hal (mapM_expandAssign h2)]
  refine ⟨{ s with masked := true, ctx := m1 }, reportM_ok ?_, ?_⟩
  · unfold bAssign addVarContext
    simp [wordsOf, Typed.text, hadd, setCtxMgr]
  · unfold valueOf
    rw [hget]
    rfl

example : (TCmd.line { before := [.assign (cs!"A") (.plain (cs!"1"))], name := none }).text = cs!" A=1" ∧
    PlainWord (cs!"A") ∧ PlainWord (cs!"1") ∧ keyOk (cs!"A=1") = true ∧ (demoShell []).ctx.stack ≠ [] ∧
    (demoShell []).ctx.getVar (cs!"A") = none := by
  decide +kernel

/-! ## C79 -/

/-- A line reports how its text ends. -/
theorem reported_line (w : World) (n : Nat) (t : Str) (ht : t ≠ []) (s : Sh) :
    Reported (evalText w n t s) (interactiveLine w n t s) := by
  unfold interactiveLine evalText
  rw [if_neg ht]
  cases parse t with
  | none => exact ⟨_, rfl⟩
  | some cc =>
    simp only
    rw [run_bind, run_tryE]
    rcases evalTop w n cc s with ⟨o, s1⟩
    cases o <;> first | rfl | exact ⟨_, rfl⟩

/-- What `eval` and `source` do with a text. -/
theorem reported_text (w : World) (n : Nat) (t : Str) (s : Sh) (m1 m2 : Str → Str) :
    Reported (evalText w n t s) (reportM (match parse t with
      | none => throwE (m1 (w.parseMsg t))
      | some cc => do
        match ← tryE (evalCC (evalFuel w n) cc) with
        | .ok _ => pure ()
        | .error e => throwE (m2 e)) s) := by
  unfold evalText
  cases parse t with
  | none => exact ⟨_, rfl⟩
  | some cc =>
    simp only
    unfold reportM
    rw [run_bind, run_tryE, run_bind, run_tryE]
    have : evalTop w n cc = evalCC (evalFuel w n) cc := rfl
    rw [this]
    rcases evalCC (evalFuel w n) cc s with ⟨o, s1⟩
    cases o <;> first | rfl | exact ⟨_, rfl⟩

/-- C79, as far as it holds: `eval` with one argument evaluates that text (as a line) in the current
shell.  (What is missing: any further argument is ignored, see below.) -/
theorem C79_one_partial (w : World) (n : Nat) (s : Sh) (c : Call) (hc : c.Ok s) (hn : c.name = cs!"eval")
    (v : Str) (hv : c.values = [v]) :
    Reported (evalText w n (v ++ ['\n']) { s with masked := true }) (interactiveLine w (n + 1) c.text s) := by
  rw [Call.line w n hc, callBuiltin_eval _ _ (show (Call.simple c).name = _ from hn)]
  have := reported_text w n (v ++ ['\n']) { s with masked := true } (cs!"Error parsing file: " ++ ·)
    (cs!"Error evaluating string: " ++ ·)
  unfold bEval Call.simple
  simp only [hv]
  exact this

/-- The arguments of `eval` after the first make no difference. -/
theorem C79_ignored (w : World) (n : Nat) (s : Sh) (c d : Call) (hc : c.Ok s) (hd : d.Ok s)
    (hcn : c.name = cs!"eval") (hdn : d.name = cs!"eval") (hv : c.values.head? = d.values.head?) :
    interactiveLine w (n + 1) c.text s = interactiveLine w (n + 1) d.text s := by
  rw [Call.line w n hc, callBuiltin_eval _ _ (show (Call.simple c).name = _ from hcn),
    Call.line w n hd, callBuiltin_eval _ _ (show (Call.simple d).name = _ from hdn)]
  unfold bEval Call.simple wordAt
  simp only [← List.head?_eq_getElem?, hv]

/-- C79 fails: `eval ls -l` runs `ls`. -/
theorem C79_counterexample :
    started (demo [cs!"eval ls -l"] [.st (.exited 100 0)]).trace = [[cs!"ls"]] := by
  decide +kernel

example : started (demo [cs!"eval 'ls -l ; pwd ; ls x'"] [.st (.exited 100 0), .err, .st (.exited 101 0)]).trace =
      [[cs!"ls", cs!"-l"], [cs!"ls", cs!"x"]] ∧
    (⟨cs!"eval", [(.single (cs!"ls -l"), cs!"ls -l")]⟩ : Call).text = cs!" eval 'ls -l'" ∧
    (⟨cs!"eval", [(.single (cs!"ls -l"), cs!"ls -l")]⟩ : Call).values = [cs!"ls -l"] := by
  decide +kernel

example : (⟨cs!"eval", [(.single (cs!"ls -l"), cs!"ls -l")]⟩ : Call).Ok (demoShell []) :=
  ⟨by decide, by decide, by decide, by decide, by
    intro a ha
    simp only [List.mem_singleton] at ha
    subst ha
    show Arrives (cs!"'ls -l'") (cs!"ls -l")
    unfold Arrives
    rw [if_pos (by decide)]
    rfl⟩

/-! ## C80 -/

theorem bindAll_vars (ps : List (Str × Str)) : ∀ (s : Sh), s.ctx.stack ≠ [] → (ps.map Prod.fst).Nodup →
    (∀ p ∈ ps, Bindable p) → (∀ p ∈ ps, ∀ b, s.ctx.getVar p.1 = some b → b.readonly = false) →
    ∃ m', bindAll ps s = (.ok (), { s with ctx := m' }) ∧ m'.stack = s.ctx.stack ∧
      (∀ f, m'.getFunction f = s.ctx.getFunction f) ∧
      (∀ p ∈ ps, m'.getVar p.1 = some { value := p.2 }) ∧
      (∀ y, Unqualified y → y ∉ ps.map Prod.fst → m'.getVar y = s.ctx.getVar y) := by
  induction ps with
  | nil => intro s _ _ _ _; exact ⟨s.ctx, rfl, rfl, fun _ => rfl, by simp, fun _ _ _ => rfl⟩
  | cons p ps ih =>
    obtain ⟨x, a⟩ := p
    intro s hst hnd hb hro
    have hbx := hb (x, a) List.mem_cons_self
    simp only [List.map_cons, List.nodup_cons] at hnd
    obtain ⟨m1, t, pre, post, hadd, -, -, -, es, -, -, -, -, hget, hother, -, hgf⟩ :=
      CtxMgr.assign_spec s.ctx x a a hbx.noEq hbx.unq hbx.key hbx.valEq hbx.valQ hbx.valL hst
        (hro (x, a) List.mem_cons_self)
    have hxin : ∀ p ∈ ps, p.1 ≠ x := fun p hp e => hnd.1 (by
      rw [← e]; exact List.mem_map_of_mem hp)
    obtain ⟨m', hrun, es', hgf', hall, hout⟩ := ih { s with ctx := m1 } (by show m1.stack ≠ _; rw [es]; exact hst)
      hnd.2 (fun p hp => hb p (List.mem_cons_of_mem _ hp))
      (fun p hp b h => by
        have h' : m1.getVar p.1 = some b := h
        rw [hother _ (hb p (List.mem_cons_of_mem _ hp)).unq (hxin p hp)] at h'
        exact hro p (List.mem_cons_of_mem _ hp) b h')
    refine ⟨m', ?_, es'.trans es, fun f => (hgf' f).trans (hgf f), ?_, ?_⟩
    · rw [bindAll]
      have h1 : addVarContext (x ++ '=' :: a) s = (.ok (), { s with ctx := m1 }) := by
        unfold addVarContext
        simp [hadd, setCtxMgr]
      rw [run_bind_ok h1, hrun]
    · intro p hp
      rcases List.mem_cons.1 hp with rfl | hp
      · rw [hout x hbx.unq hnd.1]; exact hget
      · exact hall p hp
    · intro y hy hn
      simp only [List.map_cons, List.mem_cons, not_or] at hn
      rw [hout y hy hn.2]
      exact hother y hy hn.1

theorem sourceArgs_eq (as : List Str) (i : Nat) : sourceArgs i as = bindAll (numbered i as) := by
  induction as generalizing i with
  | nil => rfl
  | cons a as ih => simp only [sourceArgs, numbered, bindAll, ih]

theorem sourced_run {w : World} {s : Sh} {name file : Str} (h : Sourced w s name file) (k : Str → M α) :
    (if hasChar '/' name then pure name >>= k
      else do
        match ← lookupCommandM w name with
        | some p => pure p >>= k
        | none => pure name >>= k : M α) s = k file s := by
  rcases h with ⟨h1, rfl⟩ | ⟨h1, path, hp, h⟩
  · rw [if_pos ((hasChar_iff ..).2 h1)]; rfl
  · rw [if_neg (by rw [hasChar_iff]; exact h1), run_bind_ok (lookupCommandM_run w name s hp)]
    rcases h with h | ⟨h, rfl⟩
    · rw [(searchPath_first _ _ _ _).2 h]; rfl
    · rw [(searchPath_missing _ _ _).2 h]; rfl

/-- What `source` does once its arguments are assigned. -/
theorem source_after {w : World} (n : Nat) {s s1 : Sh} {c : Call} (hc : c.Ok s)
    (hn : c.name = cs!"source" ∨ c.name = cs!".") {name file : Str} {args : List Str} (hv : c.values = name :: args)
    (hargs : sourceArgs 1 args { s with masked := true } = (.ok (), s1)) (hfile : Sourced w s1 name file) :
    interactiveLine w (n + 1) c.text s = reportM (do
      match w.readFile s1.trace file with
      | .missing => throwE (c.name ++ ' ' :: name ++ cs!": No such file or directory")
      | .notUtf8 => panicM .unwrap
      | .text t =>
        match parse t with
        | none => throwE (cs!"Error parsing file: " ++ w.parseMsg t)
        | some cc =>
          match ← tryE (evalCC (evalFuel w n) cc) with
          | .ok _ => pure ()
          | .error e => throwE (cs!"Error evaluating string: " ++ e)) { s1 with trace := .readFile file :: s1.trace } := by
  have hcall : callBuiltin w (evalFuel w n) (Call.simple c) = bSource w (evalFuel w n) (Call.simple c) := by
    rcases hn with h | h
    · exact callBuiltin_source _ _ h
    · exact callBuiltin_dot _ _ h
  rw [Call.line w n hc, hcall]
  unfold bSource
  rw [show (Call.simple c).words = name :: args from hv]
  simp only
  unfold reportM
  rw [run_bind, run_bind, run_tryE, run_tryE]
  rw [run_bind_ok hargs]
  erw [sourced_run hfile]
  rfl

/-- C80, as far as it holds: `source` evaluates the text of the file, as a line, in the current shell, in
which its other arguments are `$1`, `$2`, … and everything else is as before.  (What is missing:
arguments the shell cannot bind, and files that are no text; see below.) -/
theorem C80_source_partial (w : World) (n : Nat) (s : Sh) (c : Call) (hc : c.Ok s)
    (hn : c.name = cs!"source" ∨ c.name = cs!".") (name file t : Str) (args : List Str)
    (hv : c.values = name :: args) (hstack : s.ctx.stack ≠ [])
    (hargs : ∀ i a, args[i]? = some a → PlainArg (i + 1) a)
    (hro : ∀ i, i < args.length → ∀ b, s.ctx.getVar (natStr (i + 1)) = some b → b.readonly = false) :
    ∃ s1, s1 = { s with ctx := s1.ctx, masked := true, trace := s1.trace } ∧
      s1.trace = .readFile file :: s.trace ∧
      (∀ i a, args[i]? = some a → valueOf s1 (natStr (i + 1)) = some a) ∧
      (∀ y, Unqualified y → (∀ i, i < args.length → y ≠ natStr (i + 1)) → valueOf s1 y = valueOf s y) ∧
      (∀ f, s1.ctx.getFunction f = s.ctx.getFunction f) ∧
      (args = [] → s1.ctx = s.ctx) ∧
      (Sourced w { s1 with trace := s.trace } name file → w.readFile s.trace file = .text t →
        Reported (evalText w n t s1) (interactiveLine w (n + 1) c.text s)) := by
  have hmem : ∀ p ∈ numbered 1 args, ∃ i, i < args.length ∧ p.1 = natStr (i + 1) ∧ args[i]? = some p.2 := by
    intro p hp
    obtain ⟨k, h1, h2⟩ := mem_numbered hp
    exact ⟨k, (List.getElem?_eq_some_iff.1 h1).1, by rw [h2, Nat.add_comm], h1⟩
  have bindable : ∀ {i : Nat} {a : Str}, PlainArg i a → Bindable (natStr i, a) := fun {i a} h =>
    { noEq := natStr_not_mem (d := '=') rfl
      unq := natStr_unqualified i
      key := by
        apply keyOk_natStr_few
        rw [List.filter_cons_of_neg (by decide)]; exact h.digits
      valEq := h.noEq
      valQ := .inr ⟨h.noQuotes, rfl⟩
      valL := h.notLone }
  obtain ⟨m1, hrun, hst, hf, hall, hout⟩ := bindAll_vars (numbered 1 args) { s with masked := true } hstack
    (numbered_nodup args 1)
    (fun p hp => by
      obtain ⟨i, _, e, h⟩ := hmem p hp
      have := bindable (hargs i p.2 h)
      rwa [← e] at this)
    (fun p hp b h => by
      obtain ⟨i, hi, e, _⟩ := hmem p hp
      exact hro i hi b (by rw [← e]; exact h))
  refine ⟨{ s with masked := true, ctx := m1, trace := .readFile file :: s.trace }, rfl, rfl, ?_, ?_, hf, ?_, ?_⟩
  · intro i a h
    have := hall (natStr (i + 1), a) (by
      have := numbered_mem (i := 1) h
      rwa [Nat.add_comm] at this)
    unfold valueOf
    rw [this]
    rfl
  · intro y hy hne
    unfold valueOf
    rw [hout y hy]
    intro h
    obtain ⟨p, hp, rfl⟩ := List.mem_map.1 h
    obtain ⟨i, hi, e, _⟩ := hmem p hp
    exact hne i hi e
  · intro h
    subst h
    have := congrArg (fun r => r.2.ctx) hrun
    exact this.symm
  · intro hfile hread
    rw [source_after n hc hn hv (s1 := { s with masked := true, ctx := m1 })
      (by rw [sourceArgs_eq]; exact hrun) (by exact hfile)]
    simp only [hread]
    exact reported_text w n t _ (cs!"Error parsing file: " ++ ·) (cs!"Error evaluating string: " ++ ·)

/-- C80: a missing file is reported and nothing is run. -/
theorem C80_missing (w : World) (n : Nat) (s : Sh) (c : Call) (hc : c.Ok s)
    (hn : c.name = cs!"source" ∨ c.name = cs!".") (name file : Str) (hv : c.values = [name])
    (hfile : Sourced w s name file) (hread : w.readFile s.trace file = .missing) :
    interactiveLine w (n + 1) c.text s = (.ok (), { s with
      masked := true
      trace := .print ((s.fds.get 1).map FdE.chan) (c.name ++ ' ' :: name ++ cs!": No such file or directory\n") ::
        .readFile file :: s.trace }) := by
  rw [source_after n hc hn hv (s1 := { s with masked := true }) rfl (by exact hfile)]
  simp only [hread]
  have e : c.name ++ ' ' :: name ++ cs!": No such file or directory\n" =
      (c.name ++ ' ' :: name ++ cs!": No such file or directory") ++ ['\n'] := by simp
  rw [e]
  rfl

/-- C80 fails: a file that is no text, or an argument with many digits, ends the shell. -/
theorem C80_counterexample :
    let w : World := { demoWorld [] with readFile := fun _ _ => .notUtf8 }
    outcome (typeLines w [cs!"source /x"] (demoShell [])).1 = .panic .unwrap ∧
    outcome (demoOut [cs!"source /x 12345678901234567890"] [] [(cs!"/x", cs!"ls")]) = .panic .unwrap := by
  decide +kernel

example : started (demo [cs!"source /lib/x a b", cs!"ls $1"] [.st (.exited 100 0), .err, .st (.exited 101 0)]
      [(cs!"/lib/x", cs!"ls $2 ; X=3")]).trace = [[cs!"ls", cs!"b"], [cs!"ls", cs!"a"]] ∧
    valueOf (demo [cs!"source /lib/x a b"] [.st (.exited 100 0)] [(cs!"/lib/x", cs!"ls $2 ; X=3")]) (cs!"X") = some (cs!"3") := by
  decide +kernel

example : (⟨cs!"source", [word (cs!"/lib/x"), word (cs!"a")]⟩ : Call).Ok (demoShell []) ∧ PlainArg 1 (cs!"a") :=
  ⟨⟨by decide, by decide, by decide, by decide, by
    intro a ha
    simp only [List.mem_cons, List.not_mem_nil, or_false] at ha
    rcases ha with rfl | rfl <;> exact means_word (by decide)⟩,
   ⟨by decide, by decide, by
      intro q hq t e
      cases t with
      | nil => revert hq; simp at e
      | cons a t => simp at e, by
      rintro ⟨q, hq, e⟩
      simp only [List.cons.injEq, and_true] at e
      subst e
      revert hq
      decide, by decide⟩⟩

/-! ## C81 -/

/-- C81, as far as it holds: `exec`, with its options in one word (as `-cl`, `-a name` or `-cla name`) or in two,
replaces the shell by the program of that name in `PATH`, with the arguments, environment and open descriptors
asked for.  (What is missing: commands with certain letters, options in three words, and `-al`, see below; paths
with `/` are searched for in `PATH`, see C74.) -/
theorem C81_exec_partial (w : World) (n : Nat) (s : Sh) (c : Call) (hc : c.Ok s) (hn : c.name = cs!"exec")
    (f : ExecFlags) (cmd : Str) (args : List Str) (hv : ExecWords c.values f cmd args)
    (hnul : ∀ a ∈ f.arg0 cmd :: args, '\x00' ∉ a) (file : Str)
    (hrun : Runnable w s s.trace cmd file) (l : TLine) (hl : c.Begins l) :
    ∃ img s', interactiveLine w (n + 1) l.text s = (.execed img, s') ∧ img.path = file ∧
      img.argv = f.arg0 cmd :: args ∧ img.env = (if f.empty then [] else s.env) ∧
      img.fds = s.fds.filter (fun p => !p.2.cloexec) ∧ img.masked = false ∧ s'.trace = s.trace := by
  obtain ⟨⟨path, hp, hfirst⟩, hx, hfn⟩ := hrun
  have key : ∀ o1 o : ExecOpts, execOpts1 c.values { s with masked := true } = (.ok o1, { s with masked := true }) →
      execOpts2 c.values o1 { s with masked := true } = (.ok o, { s with masked := true }) →
      c.values[o.pos]? = some cmd → execArgv c.values o = f.arg0 cmd :: args → o.emptyEnv = f.empty →
      bExec w (Call.simple c) { s with masked := true } =
        (.execed (execImage (removeHandlers s).2 file (f.arg0 cmd :: args) (if f.empty then [] else s.env)),
          (removeHandlers s).2) := by
    intro o1 o h1 e2 h2 h3 h4
    unfold bExec
    rw [show (Call.simple c).words = c.values from rfl]
    have hne : ∃ a as, c.values = a :: as := by
      cases hcv : c.values with
      | nil => rw [hcv] at h2; simp at h2
      | cons a as => exact ⟨a, as, rfl⟩
    obtain ⟨a, as, hcv⟩ := hne
    rw [hcv] at h1 h2 h3 e2 ⊢
    simp only
    rw [run_bind_ok h1, run_bind_ok e2, h3]
    rw [if_neg (by
      rw [List.any_eq_true]
      rintro ⟨x, hx1, hx2⟩
      exact hnul x hx1 ((hasChar_iff ..).1 hx2))]
    unfold wordAt
    rw [h2]
    simp only [unwrapM_some, run_pure_bind, run_getS_bind, h4]
    unfold tempExecve
    rw [run_bind_ok (show removeHandlers { s with masked := true } = (.ok (), (removeHandlers s).2) from rfl)]
    rw [run_bind_ok (lookupCommandM_run w _ (removeHandlers s).2 (path := path) hp)]
    rw [show (removeHandlers s).2.trace = s.trace from rfl]
    rw [(searchPath_first _ _ _ _).2 hfirst]
    simp only
    rw [if_neg (by rw [hasChar_iff]; exact hfn), run_getS_bind]
    rw [if_pos (show w.execOk (removeHandlers s).2.trace file = true from hx)]
    rfl
  have done : bExec w (Call.simple c) { s with masked := true } =
        (.execed (execImage (removeHandlers s).2 file (f.arg0 cmd :: args) (if f.empty then [] else s.env)),
          (removeHandlers s).2) := by
    have hno : ∀ {a : Char} {v : Str}, a ∉ v → hasChar a v = false := by
      intro a v h
      rw [Bool.eq_false_iff, ne_eq, hasChar_iff]
      exact h
    generalize c.values = ws at hv key
    cases hv with
    | one hcmd =>
      have two : ∀ o : ExecOpts, (f.words cmd args)[o.pos]? = some cmd →
          execOpts2 (f.words cmd args) o { s with masked := true } = (.ok o, { s with masked := true }) := by
        intro o h2
        unfold execOpts2 wordAt
        rcases hcmd with hd | ⟨h3, h4, h5⟩
        · simp [h2, hno hd]
        · by_cases hd : hasChar '-' cmd = true
          · simp [h2, hno h3, hno h4, hno h5]
          · simp [h2, hd]
      obtain ⟨e, lg, nm⟩ := f
      cases e <;> cases lg <;> cases nm with
      | none =>
        first
        | exact key {} {} (by
            rcases hcmd with hd | ⟨h3, h4, h5⟩
            · simp [ExecFlags.words, execOpts1, wordAt, hno hd]
            · simp [ExecFlags.words, execOpts1, wordAt, hno h3, hno h4, hno h5]) (two _ rfl) rfl rfl rfl
        | exact key { emptyEnv := true, pos := 1 } _ rfl (two _ rfl) rfl rfl rfl
        | exact key { dash := true, pos := 1 } _ rfl (two _ rfl) rfl rfl rfl
        | exact key { emptyEnv := true, dash := true, pos := 1 } _ rfl (two _ rfl) rfl rfl rfl
      | some nm =>
        first
        | exact key { rename := true, pos := 2 } _ rfl (two _ rfl) rfl rfl rfl
        | exact key { emptyEnv := true, rename := true, pos := 2 } _ rfl (two _ rfl) rfl rfl rfl
        | exact key { dash := true, rename := true, pos := 2 } _ rfl (two _ rfl) rfl rfl rfl
        | exact key { emptyEnv := true, dash := true, rename := true, pos := 2 } _ rfl (two _ rfl) rfl rfl rfl
    | @name f nm _ _ h1 h2 =>
      obtain ⟨e, lg, nm'⟩ := f
      cases h1
      cases e <;> cases lg
      · simp at h2
      · exact key { dash := true, pos := 1 } { dash := true, rename := true, pos := 3 } rfl rfl rfl rfl rfl
      · exact key { emptyEnv := true, pos := 1 } { emptyEnv := true, rename := true, pos := 3 } rfl rfl rfl rfl rfl
      · exact key { emptyEnv := true, dash := true, pos := 1 } { emptyEnv := true, dash := true, rename := true, pos := 3 }
          rfl rfl rfl rfl rfl
    | @login f _ _ h0 h1 h2 =>
      obtain ⟨e, lg, nm⟩ := f
      cases h0
      have two : ∀ o : ExecOpts, (ExecFlags.words ⟨e, lg, none⟩ (cs!"-l") (cmd :: args))[o.pos]? = some (cs!"-l") →
          (ExecFlags.words ⟨e, lg, none⟩ (cs!"-l") (cmd :: args))[o.pos + 1]? = some cmd →
          execOpts2 (ExecFlags.words ⟨e, lg, none⟩ (cs!"-l") (cmd :: args)) o { s with masked := true } =
            (.ok { o with dash := true, pos := o.pos + 1 }, { s with masked := true }) := by
        intro o h3 h4
        unfold execOpts2 wordAt
        have e1 : hasChar '-' (cs!"-l") = true := by decide
        have e2 : hasChar 'c' (cs!"-l") = false := by decide
        have e3 : hasChar 'l' (cs!"-l") = true := by decide
        simp [h3, e1, e2, e3, h4, hno h2]
      cases e <;> cases lg
      · simp at h1
      · exact key { dash := true, pos := 1 } _ rfl (two _ rfl rfl) rfl rfl rfl
      · exact key { emptyEnv := true, pos := 1 } _ rfl (two _ rfl rfl) rfl rfl rfl
      · exact key { emptyEnv := true, dash := true, pos := 1 } _ rfl (two _ rfl rfl) rfl rfl rfl
    | @empty f _ _ h0 h1 h2 h2' =>
      obtain ⟨e, lg, nm⟩ := f
      cases h0
      have two : ∀ o : ExecOpts, (ExecFlags.words ⟨e, lg, none⟩ (cs!"-c") (cmd :: args))[o.pos]? = some (cs!"-c") →
          (ExecFlags.words ⟨e, lg, none⟩ (cs!"-c") (cmd :: args))[o.pos + 1]? = some cmd →
          execOpts2 (ExecFlags.words ⟨e, lg, none⟩ (cs!"-c") (cmd :: args)) o { s with masked := true } =
            (.ok { o with emptyEnv := true, pos := o.pos + 1 }, { s with masked := true }) := by
        intro o h3 h4
        unfold execOpts2 wordAt
        have e1 : hasChar '-' (cs!"-c") = true := by decide
        have e2 : hasChar 'c' (cs!"-c") = true := by decide
        simp [h3, e1, e2, h4, hno h2, hno h2']
      cases e <;> cases lg
      · simp at h1
      · exact key { dash := true, pos := 1 } _ rfl (two _ rfl rfl) rfl rfl rfl
      · exact key { emptyEnv := true, pos := 1 } _ rfl (two _ rfl rfl) rfl rfl rfl
      · exact key { emptyEnv := true, dash := true, pos := 1 } _ rfl (two _ rfl rfl) rfl rfl rfl
  refine ⟨_, (removeHandlers s).2, Call.begins w n hc hl (by
    rw [callBuiltin_exec _ _ (show (Call.simple c).name = _ from hn)]
    exact done) (by simp), rfl, rfl, rfl, rfl, rfl, rfl⟩

/-- C81 fails: options in two words are misread (here `cat` is taken for the option `a`, and
`-c` for the name), and so is a command with a dash in its name. -/
theorem C81_counterexample :
    outcome (demoOut [cs!"exec -c -l cat x y z"]) = .execed (cs!"/bin/y") [cs!"-x", cs!"z"] ∧
    outcome (demoOut [cs!"exec -a sh -c go"]) = .execed (cs!"/bin/go") [cs!"-c"] ∧
    outcome (demoOut [cs!"exec git-lfs x"]) = .execed (cs!"/bin/x") [cs!"-x"] ∧
    outcome (demoOut [cs!"exec my-cmd"]) = .panic .index := by
  decide +kernel

example : outcome (demoOut [cs!"exec -cla sh ls -x ; ls"]) = .execed (cs!"/bin/ls") [cs!"-sh", cs!"-x"] ∧
    outcome (demoOut [cs!"exec ls -x"]) = .execed (cs!"/bin/ls") [cs!"ls", cs!"-x"] ∧
    (⟨cs!"exec", [word (cs!"-cla"), word (cs!"sh"), word (cs!"ls"), word (cs!"-x")]⟩ : Call).values =
      ExecFlags.words ⟨true, true, some (cs!"sh")⟩ (cs!"ls") [cs!"-x"] ∧
    ExecFlags.arg0 ⟨true, true, some (cs!"sh")⟩ (cs!"ls") = cs!"-sh" := by
  decide +kernel

example : outcome (demoOut [cs!"exec -l -a sh my-cat -x"]) = .execed (cs!"/bin/my-cat") [cs!"-sh", cs!"-x"] ∧
    outcome (demoOut [cs!"exec -c -l vi x"]) = .execed (cs!"/bin/vi") [cs!"-vi", cs!"x"] := by
  decide +kernel

example : ExecWords [cs!"-l", cs!"-a", cs!"sh", cs!"my-cat", cs!"-x"] ⟨false, true, some (cs!"sh")⟩ (cs!"my-cat") [cs!"-x"] :=
  .name (f := ⟨false, true, none⟩) rfl (.inr rfl)

/-! ## C78 -/

/-- C78 fails: these lines end the shell. -/
theorem C78_counterexample :
    ∀ l ∈ [cs!"cd", cs!"exit x", cs!"return x", cs!"fg", cs!"bg", cs!"fg x", cs!"fg %", cs!"fg ''", cs!"alias", cs!"unalias",
      cs!"eval", cs!"unset -v", cs!"readonly -v", cs!"readonly X", cs!"exec -c", cs!"export '=x'",
      cs!"export 1=12345678901234567890"],
      ∃ k, outcome (demoOut [l]) = .panic k := by
  have key : ∀ l ∈ [cs!"cd", cs!"exit x", cs!"return x", cs!"fg", cs!"bg", cs!"fg x", cs!"fg %", cs!"fg ''", cs!"alias",
      cs!"unalias", cs!"eval", cs!"unset -v", cs!"readonly -v", cs!"readonly X", cs!"exec -c", cs!"export '=x'",
      cs!"export 1=12345678901234567890"],
      (match outcome (demoOut [l]) with | .panic _ => true | _ => false) = true := by
    decide +kernel
  intro l hl
  have := key l hl
  generalize outcome (demoOut [l]) = o at this
  cases o with
  | panic k => exact ⟨k, rfl⟩
  | _ => cases this

/-- C78 fails: listing the jobs ends the shell if there are any, and so does listing a read-only
variable. -/
theorem C78_counterexample_lists :
    outcome (demoOut [cs!"sleep &", cs!"jobs"]) = .panic .borrow ∧
    outcome (demoOut [cs!"readonly X=1", cs!"readonly -p x"]) = .panic .stackOverflow := by
  decide +kernel

/-- A computation that reports an error or ends well; it ends the shell only if `q`. -/
def Fine (q : Prop) (m : M Unit) (s : Sh) : Prop :=
  (m s).1 = .ok () ∨ (∃ e, (m s).1 = .err e) ∨ (q ∧ ∃ c, (m s).1 = .exit c) ∨ (q ∧ ∃ i, (m s).1 = .execed i)

theorem survives_report {q : Prop} {m : M Unit} {s : Sh} (h : Fine q m s) :
    Survives (reportM m s).1 ∧ (¬ q → (reportM m s).1 = .ok ()) := by
  unfold reportM
  rw [run_bind, run_tryE]
  unfold Fine at h
  generalize m s = r at h
  obtain ⟨o, s1⟩ := r
  rcases h with h | ⟨e, h⟩ | ⟨hq, c, h⟩ | ⟨hq, i, h⟩ <;> cases h
  · exact ⟨.inl ⟨_, rfl⟩, fun _ => rfl⟩
  · exact ⟨.inl ⟨_, rfl⟩, fun _ => rfl⟩
  · exact ⟨.inr (.inl ⟨_, rfl⟩), fun h => absurd hq h⟩
  · exact ⟨.inr (.inr ⟨_, rfl⟩), fun h => absurd hq h⟩

theorem fine_displayAliases {q : Prop} (al : AMap Str) (s : Sh) : Fine q (displayAliases al) s := by
  induction al generalizing s with
  | nil => exact .inl rfl
  | cons p al ih =>
    obtain ⟨k, v⟩ := p
    unfold displayAliases Fine printlnM
    exact ih _

theorem fine_printEnv {q : Prop} (al : AMap Str) (s : Sh) : Fine q (printEnv al) s := by
  induction al generalizing s with
  | nil => exact .inl rfl
  | cons p al ih =>
    obtain ⟨k, v⟩ := p
    unfold printEnv Fine printlnM
    exact ih _

theorem fine_addAliases {q : Prop} (ws : List Str) (s : Sh) : Fine q (addAliases ws) s := by
  induction ws generalizing s with
  | nil => exact .inl rfl
  | cons x ws ih =>
    unfold addAliases Fine addAlias eprintlnM
    split
    · split
      · exact ih _
      · exact ih _
    · exact ih _

theorem fine_exportOne {q : Prop} {s : Sh} {v : Str} (heq : '=' ∉ v) (hst : s.ctx.stack ≠ []) (hnone : s.ctx.getVar v = none) :
    Fine q (exportAll [v]) s := by
  have henv : s.ctx.envCtx = some (s.ctx.stack.getLast hst) := List.getLast?_eq_some_getLast hst
  have h1 : hasChar '=' v = false := by rw [Bool.eq_false_iff, ne_eq, hasChar_iff]; exact heq
  have key : exportAll [v] s = (match s.ctx.getFunction v with
      | some f => do
        let (c, ro) := (s.ctx.heap (s.ctx.stack.getLast hst)).addFunction v f
        setCtxMgr (s.ctx.setCtx (s.ctx.stack.getLast hst) c)
        if ro then eprintlnM (cs!"Can't override readonly function " ++ v) else pure ()
      | none => pure () : M Unit) s := by
    unfold exportAll exportAll exportName expandVar
    simp only [h1, Bool.false_eq_true, if_false, reduceCtorEq, run_getS_bind, bind_assoc, run_pure_bind, hnone,
      henv, unwrapM_some, Option.map_none]
    have : (fun _ : Unit => (pure () : M Unit)) = pure := rfl
    cases s.ctx.getFunction v with
    | none => rfl
    | some f =>
      simp only [bind_assoc, setCtxMgr, run_modS_bind]
      split <;> rfl
  unfold Fine
  rw [key]
  cases s.ctx.getFunction v with
  | none => exact .inl rfl
  | some f =>
    simp only [setCtxMgr, run_modS_bind]
    split <;> exact .inl rfl

theorem fine_exec (w : World) {s : Sh} {v : Str} {vs : List Str} (h1 : '-' ∉ v) (h2 : ∀ x ∈ v :: vs, '\x00' ∉ x)
    {path : Str} (hp : pathOf s = some path) (hn : '\x00' ∉ path) (c : SimpleCommand) (hc : c.words = v :: vs) :
    Fine True (bExec w c) s := by
  have hd : hasChar '-' v = false := by rw [Bool.eq_false_iff, ne_eq, hasChar_iff]; exact h1
  have e1 : execOpts1 (v :: vs) s = (.ok {}, s) := by simp [execOpts1, wordAt, hd]
  have e2 : execOpts2 (v :: vs) {} s = (.ok {}, s) := by simp [execOpts2, wordAt, hd]
  have key : bExec w c s = tempExecve w v (v :: vs) s.env s := by
    unfold bExec
    rw [hc]
    simp only
    rw [run_bind_ok e1, run_bind_ok e2]
    have : execArgv (v :: vs) {} = v :: vs := rfl
    rw [this, if_neg (by
      rw [List.any_eq_true]
      rintro ⟨x, hx1, hx2⟩
      exact h2 x hx1 ((hasChar_iff ..).1 hx2))]
    rfl
  unfold Fine
  rw [key]
  unfold tempExecve
  rw [run_bind_ok (show removeHandlers s = (.ok (), (removeHandlers s).2) from rfl)]
  rw [run_bind_ok (lookupCommandM_run w _ (removeHandlers s).2 (path := path) hp)]
  cases hs : CtxMgr.searchPath (w.isFile (removeHandlers s).2.trace) v (splitOn ':' path) with
  | none => exact .inr (.inl ⟨_, rfl⟩)
  | some file =>
    simp only
    have hf : '\x00' ∉ file := by
      obtain ⟨before, dir, after, e, rfl, -, -⟩ := (searchPath_some _ _ _ _).1 hs
      have hdir : '\x00' ∉ dir := by
        intro h
        have hj : ∀ (p : Str) (d : Str), d ∈ splitOn ':' p → '\x00' ∈ d → '\x00' ∈ p := by
          intro p
          induction p with
          | nil => intro d hd h; simp [splitOn] at hd; subst hd; cases h
          | cons c p ih =>
            intro d hd h
            unfold splitOn at hd
            split at hd
            · rcases List.mem_cons.1 hd with rfl | hd
              · cases h
              · exact List.mem_cons_of_mem _ (ih d hd h)
            · cases hsp : splitOn ':' p with
              | nil =>
                rw [hsp] at hd
                simp only [List.mem_singleton] at hd
                subst hd
                simp only [List.mem_singleton] at h
                rw [h]
                exact List.mem_cons_self
              | cons a as =>
                rw [hsp] at hd ih
                rcases List.mem_cons.1 hd with rfl | hd
                · rcases List.mem_cons.1 h with h | h
                  · rw [h]; exact List.mem_cons_self
                  · exact List.mem_cons_of_mem _ (ih a List.mem_cons_self h)
                · exact List.mem_cons_of_mem _ (ih d (List.mem_cons_of_mem _ hd) h)
        exact hn (hj path dir (by rw [e]; simp) h)
      simp only [List.mem_append, List.mem_cons, not_or]
      exact ⟨hdir, by decide, h2 v List.mem_cons_self⟩
    rw [if_neg (by rw [hasChar_iff]; exact hf), run_getS_bind]
    split
    · exact .inr (.inr (.inr ⟨trivial, _, rfl⟩))
    · exact .inr (.inl ⟨_, rfl⟩)

theorem copes_fine (w : World) (n : Nat) (s : Sh) (hp : AtPrompt w s) (c : Call)
    (h : Copes s c.name c.values) : Fine (c.name = cs!"exit" ∨ c.name = cs!"exec")
      (callBuiltin w (evalFuel w n) (Call.simple c)) { s with masked := true } := by
  have hw : (Call.simple c).words = c.values := rfl
  have hsf : (Call.simple c).suffix = some ⟨[], c.values⟩ := rfl
  have hcn : (Call.simple c).name = c.name := rfl
  rw [← hcn] at h ⊢
  generalize Call.simple c = d at hw hsf h
  generalize hvs : c.values = vs at hw hsf h
  generalize hnm : d.name = nm at h
  cases h with
  | pwd => rw [callBuiltin_pwd _ _ hnm]; exact .inl rfl
  | @cd v vs =>
    rw [callBuiltin_cd _ _ hnm]
    unfold bCd Fine interruptsOff
    rw [run_modS_bind, run_getS_bind, hsf]
    simp only [wordAt, List.getElem?_cons_zero, unwrapM_some, run_pure_bind]
    cases w.chdir s.trace s.cwd v with
    | none => exact .inr (.inl ⟨_, rfl⟩)
    | some d => exact .inl rfl
  | exit =>
    rw [callBuiltin_exit _ _ hnm]
    unfold bExit Fine saveHistory
    rw [bind_assoc, run_getS_bind, hw]
    refine .inr (.inr (.inl ⟨.inl (by simp), ?_⟩))
    split <;> exact ⟨_, rfl⟩
  | exitWith hcode =>
    rw [callBuiltin_exit _ _ hnm]
    unfold bExit Fine saveHistory
    rw [bind_assoc, run_getS_bind, hw]
    simp only [parseI32_intStr hcode]
    refine .inr (.inr (.inl ⟨.inl (by simp), ?_⟩))
    split <;> exact ⟨_, rfl⟩
  | «return» =>
    rw [callBuiltin_return _ _ hnm]
    unfold bReturn Fine
    rw [hw]
    exact .inl rfl
  | returnWith hcode =>
    rw [callBuiltin_return _ _ hnm]
    unfold bReturn Fine
    rw [hw]
    simp only [parseI32_intStr hcode]
    exact .inl rfl
  | jobs ht =>
    rw [callBuiltin_jobs _ _ hnm]
    unfold bJobs displayJobs Fine
    rw [bind_assoc, run_getS_bind, show ({ s with masked := true } : Sh).jc.table = [] from ht]
    exact .inl rfl
  | alias =>
    rw [callBuiltin_alias _ _ hnm]
    unfold bAlias
    unfold Fine
    rw [run_getS_bind, hsf]
    simp only [wordAt, List.getElem?_cons_zero, unwrapM_some, run_pure_bind]
    split
    · exact fine_displayAliases _ _
    · exact fine_addAliases _ _
  | unalias =>
    rw [callBuiltin_unalias _ _ hnm]
    unfold bUnalias Fine
    rw [hsf]
    simp only
    split
    · exact .inr (.inl ⟨_, rfl⟩)
    · simp only [wordAt, List.getElem?_cons_zero, unwrapM_some, run_pure_bind]
      split <;> exact .inl rfl
  | exportNone =>
    rw [callBuiltin_export _ _ hnm]
    unfold bExport Fine
    rw [hw]
    exact fine_printEnv _ _
  | @«export» v heq hctx hnone =>
    rw [callBuiltin_export _ _ hnm]
    unfold bExport Fine
    rw [hw]
    simp only
    split
    · exact fine_printEnv _ _
    · exact fine_exportOne heq (AtPrompt_good hp).nonempty hnone
  | unset hd =>
    rename_i v vs
    rw [callBuiltin_unset _ _ hnm]
    unfold bUnset Fine unsetFlags
    rw [hw]
    simp only
    split
    · rename_i hm
      have hne := hd ((hasChar_iff ..).1 hm)
      obtain ⟨a, as, rfl⟩ : ∃ a as, vs = a :: as := by
        cases vs with
        | nil => exact absurd rfl hne
        | cons a as => exact ⟨a, as, rfl⟩
      split
      · exact .inl rfl
      · split
        · exact .inl rfl
        · split
          · exact .inl rfl
          · exact .inr (.inl ⟨_, rfl⟩)
    · exact .inl rfl
  | unsetNone =>
    rw [callBuiltin_unset _ _ hnm]
    unfold bUnset Fine
    rw [hw]
    exact .inr (.inl ⟨_, rfl⟩)
  | readonlyNone =>
    rw [callBuiltin_readonly _ _ hnm]
    unfold bReadonly Fine
    rw [hw]
    exact .inr (.inl ⟨_, rfl⟩)
  | execNone =>
    rw [callBuiltin_exec _ _ hnm]
    unfold bExec Fine
    rw [hw]
    exact .inr (.inl ⟨_, rfl⟩)
  | exec h1 h2 h3 =>
    obtain ⟨path, h3, h4⟩ := h3
    rw [callBuiltin_exec _ _ hnm]
    rcases fine_exec w h1 h2 (s := { s with masked := true }) h3 h4 d hw with h | h | h | h
    · exact .inl h
    · exact .inr (.inl h)
    · exact .inr (.inr (.inl ⟨.inr rfl, h.2⟩))
    · exact .inr (.inr (.inr ⟨.inr rfl, h.2⟩))
  | sourceNone =>
    rw [callBuiltin_source _ _ hnm]
    unfold bSource Fine
    rw [hw]
    exact .inr (.inl ⟨_, rfl⟩)

/-- C78, as far as it holds: with arguments it can cope with, a builtin typed at the prompt works, ends
the shell as asked, or its error is reported.  (What is missing: the arguments above, and `fg`, `bg`,
`eval`, `source` and `readonly` with arguments.) -/
theorem C78_copes_partial (w : World) (n : Nat) (s : Sh) (hp : AtPrompt w s) (c : Call) (hc : c.Ok s)
    (h : Copes s c.name c.values) : Survives (interactiveLine w (n + 1) c.text s).1 := by
  rw [Call.line w n hc]
  exact (survives_report (copes_fine w n s hp c h)).1

example : Copes (demoShell []) (cs!"cd") [cs!"/x"] ∧ Copes (demoShell []) (cs!"exit") [cs!"-3"] ∧
    Copes (demoShell []) (cs!"unset") [cs!"-f", cs!"g"] ∧ Copes (demoShell []) (cs!"exec") [cs!"ls", cs!"-l"] :=
  ⟨.cd, .exitWith (n := -3) (by unfold Code; omega), .unset (by simp), .exec (by decide) (by decide)
    ⟨cs!"/bin", by decide +kernel, by decide⟩⟩

end Rsh
