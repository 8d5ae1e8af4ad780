import Verif.Proofs.Prompt
import Verif.Proofs.Builtin
import Verif.Props.Context

/-!
# Properties C15-C23: the words of a command line
-/

namespace Rsh

open Spec

/-! ## Arguments -/

theorem arg_value {c : CmdLine} {i : Nat} {a : Str × Typed × Str} (h : c.args[i]? = some a) :
    c.argv[i + 1]? = some a.2.2 := by
  unfold CmdLine.argv
  have hlt : i < c.args.length := (List.getElem?_eq_some_iff.1 h).1
  rw [List.getElem?_cons_succ, List.getElem?_append_left (by simpa using hlt), List.getElem?_map, h]
  rfl

theorem arg_means {c : CmdLine} {s : Sh} (hok : c.Ok s) {i : Nat} {a : Str × Typed × Str}
    (h : c.args[i]? = some a) : a.2.1.Means (valueOf s) a.2.2 :=
  hok.ext.args a.2 (by
    unfold Ext.words CmdLine.ext
    exact List.mem_append_left _ (List.mem_map_of_mem (List.mem_of_getElem? h)))

theorem means_plain {get : Str → Option Str} {t v : Str} (hpw : PlainWord t)
    (hm : (Typed.plain t).Means get v) : v = t := by
  unfold Typed.Means at hm
  have e1 : expansion get t = t := by
    cases t with
    | nil => rfl
    | cons x xs =>
      unfold expansion
      split
      · rename_i e
        cases e
        exact absurd rfl (plainWord_head hpw (by decide))
      · rfl
  rw [show Typed.text (.plain t) = t from rfl, e1] at hm
  unfold Arrives at hm
  rw [if_neg (plainWord_head hpw (by decide)), if_neg (plainWord_head hpw (by decide))] at hm
  exact hm

theorem means_single {get : Str → Option Str} {t v : Str} (hm : (Typed.single t).Means get v) : v = t := by
  unfold Typed.Means at hm
  rw [show expansion get (Typed.text (.single t)) = Typed.text (.single t) from rfl] at hm
  unfold Arrives at hm
  rw [if_pos (by simp [Typed.text])] at hm
  simpa [Typed.text] using hm

theorem means_double {get : Str → Option Str} {t v : Str} (hm : (Typed.double t).Means get v) :
    afterDollars t = some v ∧ '`' ∉ t := by
  unfold Typed.Means at hm
  rw [show expansion get (Typed.text (.double t)) = Typed.text (.double t) from rfl] at hm
  unfold Arrives at hm
  rw [if_neg (by simp [Typed.text]), if_pos (by simp [Typed.text])] at hm
  refine ⟨by simpa [Typed.text] using hm.1, fun e => hm.2.1 (by simp [Typed.text, e])⟩

/-! ## C15 -/

/-- C15: a line that does not parse changes nothing; only a message is printed. -/
theorem C15_syntaxError (w : World) (n : Nat) (l : Str) (s : Sh) (h : parse l = none) :
    ∃ ch msg, interactiveLine w n l s = (.ok (), { s with trace := .print ch msg :: s.trace }) := by
  unfold interactiveLine
  rw [if_neg (by rintro rfl; revert h; decide), h]
  exact ⟨_, _, rfl⟩

example : parse (cs!"touch f; | b") = none ∧ parse (cs!"x=1; if") = none := by decide +kernel

/-! ## C16 -/

/-- C16: a line of plain words starts exactly one process, and its arguments are the words. -/
theorem C16_argv (w : World) (hw : Resources w) (n : Nat) (s : Sh) (hp : AtPrompt w s) (c : CmdLine)
    (hok : c.Ok s) (hword : c.name = c.word ∧ c.extra = []) (hplain : ∀ a ∈ c.args, ∃ t, a.2.1 = .plain t)
    (file : Str) (hrun : ∀ tr, Runnable w s (tr ++ s.trace) c.name file) :
    ∃ pid img, Happened s (interactiveLine w (n + 1) c.text s).2 [.spawn pid (.exec img) []] ∧
      img.path = file ∧ img.argv = c.word :: c.args.map fun a => a.2.1.text := by
  obtain ⟨pid, img, h1, -, h2, h3, -⟩ := cmdLine_program hw n hp hok hrun
  refine ⟨pid, img, h1, h2, h3.trans ?_⟩
  unfold CmdLine.argv
  rw [hword.1, hword.2]
  simp only [List.map_nil, List.append_nil, List.cons.injEq, true_and]
  apply List.map_congr_left
  intro a ha
  obtain ⟨t, ht⟩ := hplain a ha
  have hm := hok.ext.args a.2 (by
    unfold Ext.words CmdLine.ext
    exact List.mem_append_left _ (List.mem_map_of_mem ha))
  have hpw : PlainWord t := by have := hok.args a ha; rwa [ht] at this
  rw [ht] at hm ⊢
  exact means_plain hpw hm

/-- A line to test the statements with. -/
def sample : CmdLine where
  lead := cs!" "
  word := cs!"prog"
  args := [(cs!" ", .plain (cs!"a"), cs!"a"), (cs!"  ", .plain (cs!"-b/c.d"), cs!"-b/c.d")]
  trail := cs!"\t"

example : AtPrompt (demoWorld []) (atPrompt [cs!"f () { ls; }", cs!"alias l=ls"]) ∧
    sample.Ok (atPrompt [cs!"f () { ls; }", cs!"alias l=ls"]) ∧
    (∀ a ∈ sample.args, ∃ t, a.2.1 = .plain t) ∧
    ∀ tr, Runnable (demoWorld []) (atPrompt [cs!"f () { ls; }", cs!"alias l=ls"])
      tr sample.name (cs!"/bin/prog") :=
  ⟨atPrompt_ok (by decide +kernel),
   ⟨by decide, by decide, by decide, by decide, by decide,
    ⟨by decide, by decide, .inl (by decide +kernel), by decide +kernel, by decide +kernel, by decide, by simp [sample, CmdLine.ext]⟩⟩,
   by simp [sample], fun tr => demo_runnable (by decide +kernel) (by decide) (by decide) tr⟩

/-! ## C17 -/

/-- A line with quotes and variables. -/
def sample' : CmdLine where
  word := cs!"prog"
  args := [(cs!" ", .single (cs!"a $b\"`c`"), cs!"a $b\"`c`"), (cs!"  ", .double (cs!"it's; x|y"), cs!"it's; x|y"),
    (cs!" ", .double (cs!"5$ each"), cs!"5$each"), (cs!" ", .var (cs!"X"), cs!"p $(q) r")]

/-- The hypotheses of C17-C21 are met by `sample'`. -/
example : AtPrompt (demoWorld []) (atPrompt [cs!"X='p $(q) r'"]) ∧ sample'.Ok (atPrompt [cs!"X='p $(q) r'"]) ∧
    valueOf (atPrompt [cs!"X='p $(q) r'"]) (cs!"X") = some (cs!"p $(q) r") ∧
    ∀ tr, Runnable (demoWorld []) (atPrompt [cs!"X='p $(q) r'"]) tr sample'.name (cs!"/bin/prog") :=
  ⟨atPrompt_ok (by decide +kernel),
   ⟨by decide, by decide, by decide, by decide, by decide,
    ⟨by decide, by decide, .inl (by decide +kernel), by decide +kernel, by decide +kernel, by decide,
     by simp [sample', CmdLine.ext]⟩⟩,
   by decide +kernel, fun tr => demo_runnable (by decide +kernel) (by decide) (by decide) tr⟩

/-- C17: an argument in single quotes reaches the command as the text between them. -/
theorem C17_singleQuotes (w : World) (hw : Resources w) (n : Nat) (s : Sh) (hp : AtPrompt w s) (c : CmdLine)
    (hok : c.Ok s) (i : Nat) (b t v : Str) (ha : c.args[i]? = some (b, .single t, v))
    (file : Str) (hrun : ∀ tr, Runnable w s (tr ++ s.trace) c.name file) :
    ∃ pid img, Happened s (interactiveLine w (n + 1) c.text s).2 [.spawn pid (.exec img) []] ∧
      img.argv[i + 1]? = some t := by
  obtain ⟨pid, img, h1, -, -, h3, -⟩ := cmdLine_program hw n hp hok hrun
  refine ⟨pid, img, h1, ?_⟩
  rw [h3, arg_value ha]
  exact congrArg some (means_single (arg_means hok ha))

/-- C17: such an argument, whatever its text, is one the statement above applies to. -/
theorem C17_any (get : Str → Option Str) (t : Str) : (Typed.single t).Means get t := by
  unfold Typed.Means
  rw [show expansion get (Typed.text (.single t)) = Typed.text (.single t) from rfl]
  unfold Arrives
  simp [Typed.text]

/-! ## C18 -/

/-- C18: an argument in double quotes without `$` and backtick reaches the command as the text between
the quotes. -/
theorem C18_doubleQuotes (w : World) (hw : Resources w) (n : Nat) (s : Sh) (hp : AtPrompt w s) (c : CmdLine)
    (hok : c.Ok s) (i : Nat) (b t v : Str) (ha : c.args[i]? = some (b, .double t, v)) (hd : '$' ∉ t)
    (file : Str) (hrun : ∀ tr, Runnable w s (tr ++ s.trace) c.name file) :
    ∃ pid img, Happened s (interactiveLine w (n + 1) c.text s).2 [.spawn pid (.exec img) []] ∧
      img.argv[i + 1]? = some t := by
  obtain ⟨pid, img, h1, -, -, h3, -⟩ := cmdLine_program hw n hp hok hrun
  refine ⟨pid, img, h1, ?_⟩
  rw [h3, arg_value ha]
  have := (means_double (arg_means hok ha)).1
  rw [afterDollars_self hd] at this
  exact this.symm

/-- C18: such an argument, whatever its text, is one the statement above applies to. -/
theorem C18_any (get : Str → Option Str) (t : Str) (h1 : '$' ∉ t) (h2 : '`' ∉ t) :
    (Typed.double t).Means get t := by
  unfold Typed.Means
  rw [show expansion get (Typed.text (.double t)) = Typed.text (.double t) from rfl]
  unfold Arrives
  rw [if_neg (by simp [Typed.text]), if_pos (by simp [Typed.text])]
  refine ⟨?_, by simp [Typed.text, h2], fun a b e => ?_⟩
  · rw [show (Typed.text (.double t)).tail.dropLast = t by simp [Typed.text]]
    exact afterDollars_self h1
  · have : '$' ∈ Typed.text (.double t) := by rw [e]; simp
    simp [Typed.text, h1] at this

/-! ## C19 -/

/-- C19, as far as it holds: in double quotes a `$` that starts no command substitution is kept, and of
the other characters only the one after each `$` is lost.  (What is missing: that character is lost, and a
`$` at the end of the text ends the shell; see below.) -/
theorem C19_dollar_partial (w : World) (hw : Resources w) (n : Nat) (s : Sh) (hp : AtPrompt w s) (c : CmdLine)
    (hok : c.Ok s) (i : Nat) (b t v : Str) (ha : c.args[i]? = some (b, .double t, v))
    (file : Str) (hrun : ∀ tr, Runnable w s (tr ++ s.trace) c.name file) :
    ∃ pid img, Happened s (interactiveLine w (n + 1) c.text s).2 [.spawn pid (.exec img) []] ∧
      img.argv[i + 1]? = afterDollars t := by
  obtain ⟨pid, img, h1, -, -, h3, -⟩ := cmdLine_program hw n hp hok hrun
  refine ⟨pid, img, h1, ?_⟩
  rw [h3, arg_value ha]
  exact (means_double (arg_means hok ha)).1.symm

example : afterDollars (cs!"a $b c") = some (cs!"a $ c") ∧
    (Typed.double (cs!"a $b c")).Means (fun _ => none) (cs!"a $ c") := by
  decide +kernel

/-- C19 fails: the character after the `$` is lost, though `b` is neither a substitution nor a set
variable. -/
theorem C19_characterLost :
    started (demo [cs!"echo \"a$b\""]).trace = [[cs!"echo", cs!"a$"]] := by decide +kernel

theorem cutLoop_crash (w : World) (rec : List AndOr → M Int) (t : Str) : ∀ (n : Nat) (s : Sh),
    t.length + 1 < n → '$' ∉ t → '`' ∉ t → cutLoop w rec n (t ++ ['$']) s = (.panic .explicit, s) := by
  induction t with
  | nil =>
    intro n s h _ _
    cases n with
    | zero => omega
    | succ n => rfl
  | cons c cs ih =>
    intro n s h h1 h2
    cases n with
    | zero => omega
    | succ n =>
      rw [List.cons_append]
      unfold cutLoop
      rw [if_neg (by
        rintro (rfl | rfl)
        · exact h1 List.mem_cons_self
        · exact h2 List.mem_cons_self), run_bind,
        ih n s (by simp at h; omega) (fun e => h1 (List.mem_cons_of_mem _ e)) (fun e => h2 (List.mem_cons_of_mem _ e))]

/-- C19 fails: a text that ends in `$` makes the shell crash, whatever the text before it. -/
theorem C19_crash (w : World) (n : Nat) (t : Str) (h1 : '$' ∉ t) (h2 : '`' ∉ t) (h3 : '"' ∉ t)
    (name : Str) (hn : PlainWord name) (s : Sh) (ha : s.aliases.get name = none) :
    (interactiveLine w (n + 1)
      (TCmd.line { name := some (.plain name), after := [.arg (.double (t ++ ['$']))] }).text s).1 =
        .panic .explicit := by
  have hok : TCmd.Ok { name := some (.plain name), after := [.arg (.double (t ++ ['$']))] } :=
    ⟨by simp, by simp, by simpa [Typed.Ok] using hn, by simpa [Part.Ok, Typed.Ok] using h3, by simp⟩
  have key : expandCommand w (evalFuel w n) ⟨none, name, some ⟨[], [Typed.text (.double (t ++ ['$']))]⟩⟩
      { s with masked := true } = (.panic .explicit, { s with masked := true }) := by
    unfold expandCommand
    rw [run_bind_ok (aliasLookup_none (s := { s with masked := true }) ha),
      run_bind_ok (expandVars_run (by simp) (plainWord_head hn (by decide)) _)]
    unfold evalWords
    rw [if_neg hn.1]
    have e1 : ¬ startsWith ['\''] name = true := fun e =>
      plainWord_head hn (c := '\'') (by decide) ((startsWith_single _ _).1 e)
    simp only [e1, Bool.false_eq_true, if_false]
    rw [run_pure_bind, splitQts_plain hn, unwrapM_some, run_pure_bind,
      run_bind_ok (evalNameWords_one w _ (plainWord_head hn (by decide)) _)]
    simp only [Option.map_some, List.map_cons, List.map_nil, List.isEmpty_cons, Bool.false_eq_true, if_false]
    have e2 : evalSuffixWords w (evalFuel w n) [expandWord s.ctx (Typed.text (.double (t ++ ['$'])))]
        { s with masked := true } = (.panic .explicit, { s with masked := true }) := by
      rw [expandWord_of_head (by simp [Typed.text])]
      unfold evalSuffixWords evalDoubleQuotes
      have hc : cutQuotes w (evalFuel w n) (Typed.text (.double (t ++ ['$']))) { s with masked := true } =
          (.panic .explicit, { s with masked := true }) := by
        unfold cutQuotes
        simp only [Typed.text, List.head?_cons, List.tail_cons, List.dropLast_append_cons,
          List.dropLast_singleton, List.append_nil]
        exact cutLoop_crash w _ t _ _ (by simp) h1 h2
      rw [if_pos (by simp [Typed.text, startsWith])]
      split <;> (rw [bind_assoc]; exact run_bind_panic hc _)
    exact run_bind_panic e2 _
  rw [interactiveLine_panic (TCmd.parse hok) (TLine.text_ne (TCmd.line_ok hok))
    (evalPipeline_panic w _ (c := TCmd.command _) false false key)]

/-! ## C20 -/

/-- C20, as far as it holds: an argument `$name` is replaced by the value of the variable, and is one
argument.  (What is missing: values that begin with a quote; see below.) -/
theorem C20_var_partial (w : World) (hw : Resources w) (n : Nat) (s : Sh) (hp : AtPrompt w s) (c : CmdLine)
    (hok : c.Ok s) (i : Nat) (b x v v' : Str) (ha : c.args[i]? = some (b, .var x, v'))
    (hv : valueOf s x = some v) (h1 : v.head? ≠ some '"') (h2 : v.head? ≠ some '\'')
    (file : Str) (hrun : ∀ tr, Runnable w s (tr ++ s.trace) c.name file) :
    ∃ pid img, Happened s (interactiveLine w (n + 1) c.text s).2 [.spawn pid (.exec img) []] ∧
      img.argv[i + 1]? = some v ∧ img.argv.length = 1 + c.args.length + c.extra.length := by
  obtain ⟨pid, img, e1, -, -, e3, -⟩ := cmdLine_program hw n hp hok hrun
  refine ⟨pid, img, e1, ?_, ?_⟩
  · rw [e3, arg_value ha]
    have := arg_means hok ha
    unfold Typed.Means at this
    rw [show expansion (valueOf s) (Typed.text (.var x)) = (valueOf s x).getD ('$' :: x) from rfl, hv] at this
    unfold Arrives at this
    rw [Option.getD_some, if_neg h2, if_neg h1] at this
    rw [this]
  · rw [e3]
    simp [CmdLine.argv]
    omega

/-- C20 fails: the quotes in a value are taken for quotes. -/
theorem C20_quotes :
    let s := demo [cs!"X='\"a b\"'", cs!"echo $X"]
    valueOf s (cs!"X") = some (cs!"\"a b\"") ∧ started s.trace = [[cs!"echo", cs!"a b"]] := by
  decide +kernel

/-! ## C21 -/

/-- C21, as far as it holds: when a line of words, variables among them, starts a command, nothing else
is started: no value that does not begin with a double quote, or has neither `$(` nor a backtick, is
executed.  (What is missing: values that begin with a double quote and contain a substitution; see
below.) -/
theorem C21_notExecuted_partial (w : World) (hw : Resources w) (n : Nat) (s : Sh) (hp : AtPrompt w s)
    (c : CmdLine) (hok : c.Ok s) (file : Str) (hrun : ∀ tr, Runnable w s (tr ++ s.trace) c.name file) :
    ∃ pid img, Happened s (interactiveLine w (n + 1) c.text s).2 [.spawn pid (.exec img) []] := by
  obtain ⟨pid, img, h1, -⟩ := cmdLine_program hw n hp hok hrun
  exact ⟨pid, img, h1⟩

/-- C21: every value that does not begin with a double quote is covered above. -/
theorem C21_covered (get : Str → Option Str) (x v : Str) (hx : get x = some v) (h : v.head? ≠ some '"') :
    ∃ a, (Typed.var x).Means get a := by
  unfold Typed.Means
  rw [show expansion get (Typed.text (.var x)) = (get x).getD ('$' :: x) from rfl, hx, Option.getD_some]
  unfold Arrives
  by_cases h' : v.head? = some '\''
  · exact ⟨v.tail.dropLast, by rw [if_pos h']⟩
  · exact ⟨v, by rw [if_neg h', if_neg h]⟩

/-- C21 fails: a value that begins with a double quote is executed. -/
theorem C21_executed :
    let s := demo [cs!"X='\"$(touch f)\"'", cs!"echo $X"]
    valueOf s (cs!"X") = some (cs!"\"$(touch f)\"") ∧
      [cs!"touch", cs!"f"] ∈ started (s.trace.flatMap fun e => match e with | .subst _ evs => evs | _ => []) := by
  decide +kernel

/-! ## C22 -/

theorem assignment_ok {x : Str} {t : Typed} (hx : PlainWord x) (ht : t.Ok) : (assignment x t).Ok :=
  ⟨by simpa [assignment, Part.Ok] using ⟨hx, ht⟩, by simp [assignment], by simp [assignment],
   by simp [assignment], by simp [assignment]⟩

theorem assignment_run (w : World) (n : Nat) {s : Sh} {x v : Str} {t : Typed} (hx : PlainWord x) (hn : Name x)
    (ht : t.Ok) (hal : s.aliases.get [] = none) (hst : s.ctx.stack ≠ [])
    (hro : ∀ b, s.ctx.getVar x = some b → b.readonly = false)
    (he : expandAssign s.ctx (x ++ '=' :: t.text) = some (x ++ '=' :: v)) (hv : '=' ∉ v)
    (hq : ∀ q ∈ quotes, v.head? ≠ some q) :
    ∃ m, interactiveLine w (n + 1) (assignment x t).line.text s = (.ok (), { s with masked := true, ctx := m }) ∧
      m.getVar x = some { value := v } := by
  obtain ⟨m, h1, -, h3⟩ := C30_value_partial s.ctx x v hn hst hro
  refine ⟨m, ?_, h3 hv hq⟩
  rw [assign_line w n (assignment_ok hx ht) rfl hal (as := [x ++ '=' :: v])]
  · apply reportM_ok
    show addVarContext (x ++ '=' :: v) _ = _
    unfold addVarContext
    rw [run_getS_bind, show ({ s with masked := true } : Sh).ctx.addVar (x ++ '=' :: v) = some m from h1]
    rfl
  · show [x ++ '=' :: t.text].mapM _ = _
    simp [he]

/-- C22, as far as it holds: a right-hand side without `$` and quotes is assigned as it is.  (What is
missing is the very case of a variable on the right-hand side; see below.) -/
theorem C22_plain_partial (w : World) (n : Nat) (s : Sh) (x v : Str) (hx : PlainWord x) (hn : Name x)
    (hv : PlainWord v) (hal : s.aliases.get [] = none) (hst : s.ctx.stack ≠ [])
    (hro : ∀ b, s.ctx.getVar x = some b → b.readonly = false) :
    ∃ s', interactiveLine w (n + 1) (assignment x (.plain v)).line.text s = (.ok (), s') ∧
      valueOf s' x = some v := by
  have hd : ∀ c ∈ special, c ∉ v := fun c hc e => (hv.2.1 c e).2 hc
  obtain ⟨m, h1, h2⟩ := assignment_run w n (t := .plain v) hx hn hv hal hst hro (v := v) (by
      unfold expandAssign
      rw [if_neg]
      · rfl
      · rw [hasSub_single]
        simp only [Typed.text, List.mem_append, List.mem_cons, not_or]
        exact ⟨fun e => (hx.2.1 _ e).2 (by decide), by decide, hd _ (by decide)⟩) (hd _ (by decide)) (by
      intro q hq
      apply plainWord_head hv
      simp [quotes] at hq
      rcases hq with rfl | rfl <;> decide)
  exact ⟨_, h1, by unfold valueOf; rw [h2]; rfl⟩

/-- C22 fails, always: `x=$y` gives `x` the text `$y`, whatever the value of `y` (unless a variable is
called `$y`, with the dollar sign). -/
theorem C22_notExpanded (w : World) (n : Nat) (s : Sh) (x y : Str) (hx : PlainWord x) (hn : Name x)
    (hy : y ≠ [] ∧ ∀ c ∈ y, isWs c = false ∧ c ∉ special) (hal : s.aliases.get [] = none)
    (hst : s.ctx.stack ≠ []) (hro : ∀ b, s.ctx.getVar x = some b → b.readonly = false)
    (hd : valueOf s ('$' :: y) = none) :
    ∃ s', interactiveLine w (n + 1) (assignment x (.var y)).line.text s = (.ok (), s') ∧
      valueOf s' x = some ('$' :: y) := by
  have hye : '=' ∉ '$' :: y := by
    simp only [List.mem_cons, not_or]
    exact ⟨by decide, fun e => (hy.2 _ e).2 (by decide)⟩
  obtain ⟨m, h1, h2⟩ := assignment_run w n (t := .var y) hx hn hy hal hst hro (v := '$' :: y) (by
      unfold expandAssign
      rw [if_pos (by rw [hasSub_single]; simp [Typed.text])]
      have : splitOn '=' (x ++ '=' :: '$' :: y) = [x, '$' :: y] := by
        rw [splitOn_append _ _ _ (fun e => (hx.2.1 _ e).2 (by decide)), splitOn_none _ _ hye]
      rw [show Typed.text (.var y) = '$' :: y from rfl, this]
      have hd' : (s.ctx.getVar ('$' :: y)).map Var.value = none := hd
      simp only [hd']) hye (by
      intro q hq
      simp [quotes] at hq
      rcases hq with rfl | rfl <;> simp)
  exact ⟨_, h1, by unfold valueOf; rw [h2]; rfl⟩

example : let s := demo [cs!"Y=a"]
    s.aliases.get [] = none ∧ s.ctx.stack ≠ [] ∧ s.ctx.getVar (cs!"X") = none ∧
      valueOf s (cs!"Y") = some (cs!"a") ∧ valueOf s (cs!"$Y") = none ∧
      (assignment (cs!"X") (.var (cs!"Y"))).line.text = cs!" X=$Y" ∧ PlainWord (cs!"X") := by
  decide +kernel

/-- And if there is a variable called `$y`, with the dollar sign, then `x` gets the value of that one. -/
theorem C22_dollarName (w : World) (n : Nat) (s : Sh) (x y v : Str) (hx : PlainWord x) (hn : Name x)
    (hy : y ≠ [] ∧ ∀ c ∈ y, isWs c = false ∧ c ∉ special) (hal : s.aliases.get [] = none)
    (hst : s.ctx.stack ≠ []) (hro : ∀ b, s.ctx.getVar x = some b → b.readonly = false)
    (hd : valueOf s ('$' :: y) = some v) (hv : '=' ∉ v) (hq : ∀ q ∈ quotes, v.head? ≠ some q) :
    ∃ s', interactiveLine w (n + 1) (assignment x (.var y)).line.text s = (.ok (), s') ∧
      valueOf s' x = some v := by
  have hye : '=' ∉ '$' :: y := by
    simp only [List.mem_cons, not_or]
    exact ⟨by decide, fun e => (hy.2 _ e).2 (by decide)⟩
  obtain ⟨m, h1, h2⟩ := assignment_run w n (t := .var y) hx hn hy hal hst hro (v := v) (by
      unfold expandAssign
      rw [if_pos (by rw [hasSub_single]; simp [Typed.text])]
      have : splitOn '=' (x ++ '=' :: '$' :: y) = [x, '$' :: y] := by
        rw [splitOn_append _ _ _ (fun e => (hx.2.1 _ e).2 (by decide)), splitOn_none _ _ hye]
      rw [show Typed.text (.var y) = '$' :: y from rfl, this]
      have hd' : (s.ctx.getVar ('$' :: y)).map Var.value = some v := hd
      simp only [hd']) hv hq
  exact ⟨_, h1, by unfold valueOf; rw [h2]; rfl⟩

example : let s := demo [cs!"Y=a", cs!"$Y=b"]
    s.aliases.get [] = none ∧ s.ctx.stack ≠ [] ∧ s.ctx.getVar (cs!"X") = none ∧
      valueOf s (cs!"Y") = some (cs!"a") ∧ valueOf s (cs!"$Y") = some (cs!"b") := by
  decide +kernel

/-- C22 fails. -/
theorem C22_counterexample : valueOf (demo [cs!"Y=a", cs!"X=$Y"]) (cs!"X") = some (cs!"$Y") := by
  decide +kernel

/-! ## C23 -/

/-- C23, as far as it holds: a command given by an alias runs the first word of the alias; its arguments
are the ones typed, then the rest of the alias.  So the order is right when one of the two is empty.
(What is missing: both are present; see below.) -/
theorem C23_alias_partial (w : World) (hw : Resources w) (n : Nat) (s : Sh) (hp : AtPrompt w s) (c : CmdLine)
    (hok : c.Ok s) (v : Str) (_ha : s.aliases.get c.word = some v)
    (_hv : WordsOf v (c.name :: c.extra.map fun a => a.1.text)) (h : c.args = [] ∨ c.extra = [])
    (file : Str) (hrun : ∀ tr, Runnable w s (tr ++ s.trace) c.name file) :
    ∃ pid img, Happened s (interactiveLine w (n + 1) c.text s).2 [.spawn pid (.exec img) []] ∧
      img.path = file ∧ img.argv = c.name :: (c.extra.map Prod.snd ++ c.args.map (·.2.2)) := by
  obtain ⟨pid, img, h1, -, h2, h3, -⟩ := cmdLine_program hw n hp hok hrun
  refine ⟨pid, img, h1, h2, h3.trans ?_⟩
  unfold CmdLine.argv
  rcases h with h | h <;> simp [h]

/-- A line whose command is an alias. -/
def aliasSample : CmdLine where
  word := cs!"l"
  args := []
  name := cs!"ls"
  extra := [(.plain (cs!"-a"), cs!"-a"), (.var (cs!"HOME"), cs!"/home")]

example : AtPrompt (demoWorld []) (atPrompt [cs!"alias 'l=ls  -a $HOME'"]) ∧
    aliasSample.Ok (atPrompt [cs!"alias 'l=ls  -a $HOME'"]) ∧
    ∀ tr, Runnable (demoWorld []) (atPrompt [cs!"alias 'l=ls  -a $HOME'"])
      tr aliasSample.name (cs!"/bin/ls") :=
  ⟨atPrompt_ok (by decide +kernel),
   ⟨by decide, by decide, by decide, by decide, by decide,
    ⟨by decide, by decide, .inr ⟨cs!"ls  -a $HOME", by decide +kernel, by decide +kernel⟩, by decide +kernel,
     by decide +kernel, by decide, by simp [aliasSample, CmdLine.ext]⟩⟩,
   fun tr => demo_runnable (by decide +kernel) (by decide) (by decide) tr⟩

/-- C23 fails for every command given by an alias with arguments of its own when others are typed: they are
given to the program in the order typed ones, then those of the alias, the reverse of what was written. -/
theorem C23_order (w : World) (hw : Resources w) (n : Nat) (s : Sh) (hp : AtPrompt w s) (c : CmdLine)
    (hok : c.Ok s) (file : Str) (hrun : ∀ tr, Runnable w s (tr ++ s.trace) c.name file) :
    ∃ pid img, Happened s (interactiveLine w (n + 1) c.text s).2 [.spawn pid (.exec img) []] ∧
      img.path = file ∧ img.argv = c.name :: (c.args.map (·.2.2) ++ c.extra.map Prod.snd) := by
  obtain ⟨pid, img, h1, -, h2, h3, -⟩ := cmdLine_program hw n hp hok hrun
  exact ⟨pid, img, h1, h2, h3⟩

/-- C23 fails: the arguments of the alias come after the ones typed. -/
theorem C23_counterexample :
    started (demo [cs!"alias 'l=ls -a'", cs!"l f"]).trace = [[cs!"ls", cs!"f", cs!"-a"]] := by
  decide +kernel

end Rsh
