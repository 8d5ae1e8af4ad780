# Formal model of rsh: design

Subject: Ki11erRabbit/rsh, pinned source in /repo (Rust). The code is read as text only.

## Shape of the model

- Strings are `List Char`; Rust byte offsets and `&s[a..b]` are modelled with UTF-8
  lengths and a slice that fails off character boundaries.
- Every panic (`unwrap`, index out of range, `RefCell` double borrow, explicit `panic!`)
  is an explicit outcome, as are `process::exit`, `exec` and divergence.
- The shell is a state `Sh` (contexts, aliases, environment, job table, exit status,
  signal mask, trace of observable events). Functions on `&mut` state return the new state.
- External behaviour (file system, child pids, `waitpid` results, output of command
  substitutions) is given by arbitrary parameters, so theorems quantify over all of them.
- The evaluator is parametrised by its own re-entrant call (functions, `eval`, `source`);
  fuel bounds the nesting depth only, and theorems quantify over it.
- Properties the code violates are kept as stated: a counterexample theorem refutes the
  general claim on the model and a `_partial` theorem proves the part that holds.

## Layout

- `lean/Verif/Model/*`  the model, each definition citing the lines it models
- `lean/Verif/Spec/*`   small independent specifications used in theorem statements
- `lean/Verif/Proofs/*` helper lemmas
- `lean/Verif/Props/*`  the property theorems, each followed by an `example` that meets its
  hypotheses
- `seeded/LOG.jsonl`    the wrong programs the theorems were tested against

## Trusted base

What has to be believed for a theorem here to say something about rsh:

1. **Lean's kernel** (4.33.0). Nothing is proved with `native_decide` or `bv_decide`, there is
   no `sorry`, no `implemented_by` and no axiom of our own. Only Lean's core library is
   imported. The standard axioms used by each theorem are listed at the end of this file
   (at most `propext`, `Classical.choice`, `Quot.sound`).
2. **The transcription**: that the definitions in `Verif/Model` say what the cited lines of
   /repo do. The code could not be run here, so this rests on reading alone.
3. **The specifications** in `Verif/Spec` and the statements in `Verif/Props`: that they say
   what the English properties say.
4. **The parts of the system that are assumed** rather than modelled, listed below.

### What is modelled

| source | model | covered |
|---|---|---|
| src/lexer.rs | Model/Lexer.lean | everything |
| src/grammar.lalrpop | Model/Grammar.lean, Model/Parser.lean | the productions (as a derivation relation) and an executable parser proved equivalent to them |
| src/ast.rs | Model/Ast.lean, Model/Expand.lean | the tree types and lines 208-790: splitting, alias lookup, variable expansion, command substitution, quote removal, `argv` |
| src/context.rs | Model/Context.lean | everything but `Debug` formatting |
| src/shell.rs | Model/State.lean, Model/Builtins.lean, Model/Expand.lean | everything but `-l` logging and the output of `Display` for the whole shell |
| src/jobs.rs | Model/Jobs.lean, Model/Builtins.lean (messages) | everything |
| src/trap.rs | Model/Fd.lean, Model/Interleave.lean, Model/Keys.lean, Model/CtrlC.lean | the signal mask, handler installation, SIGCHLD handling; no `trap` builtin exists, so the table of traps is always empty and is left out |
| src/builtins.rs | Model/Builtins.lean | everything reachable from `call_builtin` |
| src/eval.rs | Model/Eval.lean, Model/Fd.lean, Model/Files.lean | everything; `fork`/`exec`/`pipe`/`dup2`/`open` act on a table of descriptors |
| src/main.rs | Model/Main.lean | `main`, `parse_args`, start-up files, script mode, `-c`, the interactive loop |
| src/completion.rs | Model/Completion.lean | the list of candidates; highlighting and the editor itself (rustyline) are not modelled |
| src/var.rs | Model/VarData.lean | everything; a store of its own that the shell compiles but does not use (`shell.rs` imports two names and the field that would use them is commented out) |

Functions that are compiled but that nothing calls (`expand_subshells`, `remove_whitespace`, `recombine_double_quotes`,
`remove_double_quotes`, `remove_single_quotes` of ast.rs and `take_until_seen_twice` of lexer.rs) are in Model/Unused.lean;
`read_profile` of main.rs is `readStartup` for `/etc/profile`.

### What is not modelled

- src/exec.rs, src/parser.rs, src/process.rs: not compiled (`main.rs` has no `mod` for them).
- src/log.rs and the messages printed under `-l`. (The `{:?}` text of an argument list is an arbitrary
  function of it.)
- src/dump.txt, output.txt, parserdump.txt, shell_grammar.lalrpop.bak: not code.
- The `#[cfg(test)]` parts.
- Accessor functions of shell.rs that only pass their arguments to the corresponding method
  are represented by that method.
- rustyline: a session is an arbitrary list of the inputs it delivers (a line, Ctrl-C,
  end of input, another error).  The editor's bracket validator hands over only lines whose
  brackets match; the theorems are about all lines, and the counterexamples for the prompt use lines
  whose brackets match.
- LALRPOP: the generated LR(1) automaton is trusted to accept exactly the language of
  the grammar and to build its trees (C08 shows that the grammar is unambiguous).

### Assumptions and simplifications

- *Processes*. Whether `fork`, `pipe`, `kill`, `execve`, `open` and `chdir` succeed, and the pid
  of a new process, are arbitrary functions of the history of the calling process; `setpgid`
  always succeeds. What a child process reports, and when, is an arbitrary list of `waitpid` results;
  a blocking wait without a further result hangs. A non-blocking wait that is interrupted hangs
  in the model (the code repeats it).
- *Signals*. In the evaluator signals are delivered only between two inputs of a session (any
  signal, any number of times), and one while the shell waits for a command substitution; waits for jobs may be
  interrupted any number of times. The
  finer question of a signal in the middle of an access to the shell's data is treated in the
  separate models Model/Interleave.lean and (with the interrupt key) Model/Keys.lean, in which a step is one access and the handler's wait
  for further processes of a job is not followed. The interrupt key while a foreground command is waited for is in Model/CtrlC.lean.
- *Pipes and files*. Descriptors are numbers in a table that names what they are connected to.
  Pipe capacity matters for command substitution only, where an output that does not fit
  makes the shell hang (as the code does: it waits before it reads). Several writers into one
  substitution write one after the other, in the order they were started. Output to a closed
  standard output does not fail (in the code `println!` panics if the write fails, e.g. on a pipe nobody reads).
  `eval_subshell` closes the reading end of its pipe and then drops the `File` made of it, which closes the
  number a second time: taken to fail silently, as in a release build (a debug build of a recent Rust aborts).
- *Memory*. The expansion of a variable that refers to itself ends in `deep` after an arbitrary,
  opaque number of frames (`stackFrames`); recursion of functions ends in `deep` when the fuel
  is used up. Allocation never fails. Integers that the code parses are bounded as in Rust.
- *Maps*. `HashMap`s are association lists; where the code iterates over one, the model uses the
  list's order (the theorems about listings hold for any order, or are about sorted output).
- *Sharing*. Contexts live in a heap, so the sharing by `Rc` that can be observed (contexts
  exported under a name) is kept. Function bodies and values are copied.
- *Text*. Arguments and environment are valid Unicode (`env::args` and `env::vars` panic otherwise).
- *Panics* are one outcome, whatever their message. A panic ends the shell (the process is
  built with unwinding, but nothing catches it).
- *Text*. File names and the contents of files are UTF-8; `str` order is the order of code points.


## Per property

Plan and status. `proved`: for all the cases of the statement; `partial`: the code violates it in some
cases, or the theorem covers part of it (the notes in MANIFEST.json say which).

- **C01** Lexing is total and ends with one EOF: Lexer as a function on (rest of input, byte offset) with Rust byte-slices returning none on a bad boundary; invariant 'input = consumed ++ rest, offset = byte length of consumed' by induction on the fuel/rest. *proved*: `C01_lex_total`, `C01_lex_eof`.
- **C02** Token spans quote the source exactly: Lexer as a function on (rest of input, byte offset) with Rust byte-slices returning none on a bad boundary; invariant 'input = consumed ++ rest, offset = byte length of consumed' by induction on the fuel/rest. *proved*: `C02_spans`.
- **C03** An unquoted star is the only lexical error: Case analysis of the dispatch on the first character, lifted to the token list by induction. *proved*: `C03_star`, `C03_star_rejected`.
- **C04** Blanks between tokens are insignificant: Equations of the lexer on blank / '#' / word / quote prefixes, by induction on the prefix; token kinds compared modulo positions. *proved*: `C04_leading_blanks`, `C04_which`, `C04_blanks`, `C04_blank_runs`.
- **C05** Comments do not produce tokens: Equations of the lexer on blank / '#' / word / quote prefixes, by induction on the prefix; token kinds compared modulo positions. *proved*: `C05_comment`, `C05_leading_comment`.
- **C06** A line of plain words lexes to those words: Equations of the lexer on blank / '#' / word / quote prefixes, by induction on the prefix; token kinds compared modulo positions. *proved*: `C06_plain_line`.
- **C07** Quoted tokens run to the first matching delimiter: Equations of the lexer on blank / '#' / word / quote prefixes, by induction on the prefix; token kinds compared modulo positions. *proved*: `C07_quoted`, `C07_substitution`, `C07_unclosed`, `C07_substitution_unclosed`, `C07_anywhere`.
- **C08** The grammar is unambiguous and decidable: Grammar as an inductive derivation relation transcribed from grammar.lalrpop; executable recursive-descent parser; soundness and completeness, hence uniqueness. *proved*: `C08_unambiguous`, `C08_parse_none`.
- **C09** && and || chain to the left with equal precedence: From the derivation relation (induction on derivations) or from the parser equations. *proved*: `C09_left_chain`.
- **C10** Braces and parentheses are balanced in accepted programs: From the derivation relation (induction on derivations) or from the parser equations. *proved*: `C10_balanced`.
- **C11** Leading blank lines and comment lines are accepted: Derivation relation: expected to be FALSE of the code (EOF token after 'Separator List'); prove the general negation and the part that holds. *partial*: `C11_leading_separator_rejected`, `C11_counterexample`, `C11_blank_partial`.
- **C12** A command list may end with ';' and a newline: From the derivation relation (induction on derivations) or from the parser equations. *partial*: `C12_trailing_partial`, `C12_semi_newline_rejected`, `C12_counterexample`.
- **C13** & separates commands: From the derivation relation (induction on derivations) or from the parser equations. *partial*: `C13_amp_command_rejected`, `C13_counterexample`, `C13_amp_sep_partial`.
- **C14** Reserved words are ordinary words outside command position: From the derivation relation (induction on derivations) or from the parser equations. *partial*: `C14_reserved_rejected`, `C14_reserved_line_rejected`, `C14_counterexample`, `C14_arguments_partial`.
- **C15** A syntax error has no effect: REPL step over the parser and evaluator model. *proved*: `C15_syntaxError`.
- **C16** argv fidelity: End-to-end: lexer lemma + parser lemma + expansion lemma + eval_pipeline lemma, giving the argv of the spawned process. *proved*: `C16_argv`.
- **C17** Single quotes preserve text verbatim: End-to-end: lexer lemma + parser lemma + expansion lemma + eval_pipeline lemma, giving the argv of the spawned process. *proved*: `C17_singleQuotes`, `C17_any`.
- **C18** Double quotes preserve ordinary text: End-to-end: lexer lemma + parser lemma + expansion lemma + eval_pipeline lemma, giving the argv of the spawned process. *proved*: `C18_doubleQuotes`, `C18_any`.
- **C19** A dollar sign inside double quotes is harmless: Model of SimpleCommand expansion with explicit panics; general theorem for the part that holds, concrete counterexample for the part the code violates. *partial*: `C19_dollar_partial`, `C19_characterLost`, `C19_crash`.
- **C20** $NAME expands to the value, as one word: Direct on the expansion model. *partial*: `C20_var_partial`, `C20_quotes`.
- **C21** Variable contents are never executed: Model of SimpleCommand expansion with explicit panics; general theorem for the part that holds, concrete counterexample for the part the code violates. *partial*: `C21_notExecuted_partial`, `C21_covered`, `C21_executed`.
- **C22** Assignments expand variables on the right-hand side: Model of SimpleCommand expansion with explicit panics; general theorem for the part that holds, concrete counterexample for the part the code violates. *partial*: `C22_plain_partial`, `C22_notExpanded`, `C22_dollarName`, `C22_counterexample`.
- **C23** Alias expansion keeps argument order: Model of SimpleCommand expansion with explicit panics; general theorem for the part that holds, concrete counterexample for the part the code violates. *partial*: `C23_alias_partial`, `C23_order`, `C23_counterexample`.
- **C24** Aliases behave as a map: State machine over alias operations, refinement to a function Name -> Option Value by induction over the operation list. *partial*: `C24_aliases_partial`, `C24_equals`, `C24_dashP`, `C24_dashA`, `C24_refused`, `C24_several`.
- **C25** Command substitution yields the command's output: Model of SimpleCommand expansion with explicit panics; general theorem for the part that holds, concrete counterexample for the part the code violates. *partial*: `C25_substitution_partial`, `C25_large`, `C25_counterexample`, `C25_any_partial`, `C25_stuck`.
- **C26** Splitting a command name respects quotes: Model of SimpleCommand expansion with explicit panics; general theorem for the part that holds, concrete counterexample for the part the code violates. *partial*: `C26_splits_partial`, `C26_panics`, `C26_counterexample`, `C26_words`.
- **C27** Quote trimming is safe: Direct on the expansion model. *partial*: `C27_trim_partial`, `C27_lone`, `C27_counterexample`.
- **C28** Variable lookup is innermost-first: Context manager model with a heap of contexts (Rc aliasing explicit), refinement to innermost-first lookup. *proved*: `C28_innermost`.
- **C29** Assignment updates the visible binding only: Context manager model with a heap of contexts (Rc aliasing explicit), refinement to innermost-first lookup. *proved*: `C29_assign`.
- **C30** Assignment keeps the whole value: Same model; general theorem for the guarded case, counterexample theorem where the code violates the claim. *partial*: `C30_value_partial`, `C30_counterexample`.
- **C31** Read-only variables never change: Context manager model; induction over sequences of context operations, both per context and for the variable a plain name shows (contexts once left never come back, so nothing gets in front of it). For sessions the walk of Proofs/Calm shows that lines without readonly, unset, export, eval, source, . and alias only perform such operations. Counterexamples for those commands. *partial*: `C31_readonly_partial`, `C31_counterexample`, `C31_visible_partial`, `C31_session_partial`.
- **C32** Setting a numeric (positional) name never crashes: Same model; general theorem for the guarded case, counterexample theorem where the code violates the claim. *partial*: `C32_accepted_partial`, `C32_crash`, `C32_counterexample`.
- **C33** Positional parameters are the call's arguments: Same model; general theorem for the guarded case, counterexample theorem where the code violates the claim. *partial*: `C33_parameters_partial`, `C33_counterexample`, `C33_exact`, `C33_digits`, `C33_always`, `C33_crashes`.
- **C34** A function call restores the caller's positional parameters: Same model; general theorem for the guarded case, counterexample theorem where the code violates the claim. *partial*: `C34_restored_partial`, `C34_counterexample`.
- **C35** Function calls keep the context stack balanced: Evaluator parametrised by its re-entrant call (fuel = nesting depth); invariant 'stack unchanged' by induction on fuel; leak on the error path of create_context_from_file shown by a witness. *partial*: `C35_stack_partial`, `C35_counterexample`.
- **C36** Evaluation keeps the context stack balanced: Evaluator parametrised by its re-entrant call (fuel = nesting depth); invariant 'stack unchanged' by induction on fuel; leak on the error path of create_context_from_file shown by a witness. *partial*: `C36_stack_partial`, `C36_counterexample`, `C36_reachable`.
- **C37** Namespaces isolate exported contexts: Context manager model with a heap of contexts (Rc aliasing explicit), refinement to innermost-first lookup. *proved*: `C37_namespaces`.
- **C38** export context shares the live context: Context manager model with a heap of contexts (Rc aliasing explicit), refinement to innermost-first lookup. *proved*: `C38_shares`.
- **C39** export NAME=value reaches the environment: Context manager model with a heap of contexts (Rc aliasing explicit), refinement to innermost-first lookup. *partial*: `C39_export_partial`, `C39_received`, `C39_stays`, `C39_counterexample`.
- **C40** export NAME exports an existing variable: Same model; general theorem for the guarded case, counterexample theorem where the code violates the claim. *partial*: `C40_visible_partial`, `C40_environment`, `C40_counterexample`.
- **C41** unset removes the variable: Context manager model with a heap of contexts (Rc aliasing explicit), refinement to innermost-first lookup. *partial*: `C41_environment`, `C41_unset_partial`, `C41_counterexample`, `C41_line`.
- **C42** Functions behave as scoped definitions: Context manager model with a heap of contexts (Rc aliasing explicit), refinement to innermost-first lookup. *proved*: `C42_define`, `C42_remove`, `C42_line`.
- **C43** Job ids are unique: JobControl as a state machine, invariants by induction over operation lists. *proved*: `C43_newIdUnused`, `C43_session`.
- **C44** Deleting a job removes exactly that job unless it is stopped: JobControl as a state machine, invariants by induction over operation lists. *partial*: `C44_delete_partial`, `C44_deleteByPid_partial`, `C44_deleteMissing`, `C44_stoppedPipelineLost`, `C44_stoppedPipelineLost_session`.
- **C45** A job is found by each of its pids: JobControl as a state machine, invariants by induction over operation lists. *proved*: `C45_found`, `C45_forgotten`, `C45_session`.
- **C46** The current job exists: JobControl as a state machine, invariants by induction over operation lists. *partial*: `C46_latest_partial`, `C46_current_partial`, `C46_created_partial`, `C46_crash`, `C46_crash_session`.
- **C47** jobs lists the job table: RefCell borrow state explicit: display_jobs holds a shared borrow while Display calls expand_var (exclusive borrow). *partial*: `C47_text_partial`, `C47_order_partial`, `C47_empty_partial`, `C47_crash`, `C47_crash_session`.
- **C48** Reaping a child never crashes the shell: wait_one/do_wait over an arbitrary list of waitpid results (the schedule); exact panic condition; counterexample schedules.  The whole wait for a foreground job (Spec/Waits, Proofs/Waits, Props/Waiting): for every table of other jobs and every batch of reports, exactly what the table, the current job and the status are afterwards. *partial*: `C48_reap_partial`, `C48_single_partial`, `C48_crash_background`, `C48_crash_pipeline`, `C48_foreground_partial`, `C48_crash`.
- **C49** A foreground command is waited for and its exit status recorded: wait_one/do_wait over an arbitrary list of waitpid results (the schedule); exact panic condition; counterexample schedules.  The whole wait for a foreground job (Spec/Waits, Proofs/Waits, Props/Waiting): for every table of other jobs and every batch of reports, exactly what the table, the current job and the status are afterwards. *proved*: `C49_status`.
- **C50** A foreground pipeline is waited for completely: wait_one/do_wait over an arbitrary list of waitpid results (the schedule); exact panic condition; counterexample schedules.  The whole wait for a foreground job (Spec/Waits, Proofs/Waits, Props/Waiting): for every table of other jobs and every batch of reports, exactly what the table, the current job and the status are afterwards. *partial*: `C50_all_partial`, `C50_counterexample`, `C50_early`.
- **C51** A foreground wait is not satisfied by another job: wait_one/do_wait over an arbitrary list of waitpid results (the schedule); exact panic condition; counterexample schedules.  The whole wait for a foreground job (Spec/Waits, Proofs/Waits, Props/Waiting): for every table of other jobs and every batch of reports, exactly what the table, the current job and the status are afterwards. *partial*: `C51_noOther_partial`, `C51_counterexample`, `C51_other`.
- **C52** fg and bg resume the job they name: fg/bg on the job model with an event trace of kill calls; the wait after fg as for a new job (C52_fgExits_partial). *partial*: `C52_noPid`, `C52_bg_partial`, `C52_fg_partial`, `C52_unknown`, `C52_counterexample`, `C52_fgExits_partial`.
- **C53** Signals are unblocked after every command: Mask flag in the evaluator state; witness for builtins, general theorem for foreground external commands; for `fg` and `bg`, an equivalence (`C53_fgbg`). *partial*: `C53_fgbg`, `C53_cd`, `C53_external_partial`, `C53_builtin`, `C53_counterexample`.
- **C54** SIGCHLD can arrive at any time: Micro-step model (Model/Interleave.lean) of delete_job and the other SHELL accessors against signal arrival; a stack of calls that the handler may interrupt; invariants over all runs.  C87 is false; `C87_when` says exactly when the shell crashes, by a reading of what was done against the borrowing rules (`Spec.Clash`) that does not mention the state of the model, and `C87_readers_partial` gives a class of programs for which it never does. *partial*: `C54_undisturbed_partial`, `C54_exact`, `C54_shielded`, `C54_deletes`, `C54_counterexample`, `C54_inevitable`.
- **C55** A finished background job leaves the table: sig_chld / set_signal on the model state. *proved*: `C55_terminated`, `C55_stopped`, `C55_others`.
- **C56** Signal dispositions: sig_chld / set_signal on the model state. *proved*: `C56_install`, `C56_again`.
- **C57** && and || short-circuit: Evaluator equations for and-or trees and lists against a small denotational spec over arbitrary pipeline semantics. *proved*: `C57_chain`, `C57_determined`, `C57_programs`.
- **C58** Lists run in order: Evaluator equations for and-or trees and lists against a small denotational spec over arbitrary pipeline semantics. *proved*: `C58_list`, `C58_lines`, `C58_programs`.
- **C59** A failing builtin only fails its own command: Evaluator equations for and-or trees and lists against a small denotational spec over arbitrary pipeline semantics. *partial*: `C59_stops`, `C59_goesOn_partial`, `C59_counterexample`.
- **C60** ! negates the status: Evaluator equations for and-or trees and lists against a small denotational spec over arbitrary pipeline semantics. *partial*: `C60_runs_partial`, `C60_counterexample`.
- **C61** Pipelines are plumbed correctly: Fork loop over an abstract descriptor table (arbitrary fresh descriptors), loop invariant by induction on the number of commands. *proved*: `C61_plumbed`.
- **C62** Pipelines leak no descriptor: Fork loop over an abstract descriptor table (arbitrary fresh descriptors), loop invariant by induction on the number of commands. *proved*: `C62_restored`, `C62_restoredError`, `C62_prompt`, `C62_noFailure`.
- **C63** Every command of a pipeline runs: Evaluator model of eval_pipeline; general facts and counterexamples. *partial*: `C63_external_partial`, `C63_counterexample`, `C63_ignored`.
- **C64** The status of a pipeline is that of its last command: wait_one/do_wait over an arbitrary list of waitpid results (the schedule); exact panic condition; counterexample schedules.  The whole wait for a foreground job (Spec/Waits, Proofs/Waits, Props/Waiting): for every table of other jobs and every batch of reports, exactly what the table, the current job and the status are afterwards. *partial*: `C64_first_partial`, `C64_counterexample`, `C64_anyJobs_partial`.
- **C65** A background command does not block: Evaluator model of eval_pipeline; general facts and counterexamples. *proved*: `C65_background`.
- **C66** A negated background pipeline runs in the background: Evaluator model of eval_pipeline; general facts and counterexamples. *partial*: `C66_runs_partial`, `C66_counterexample`.
- **C67** A function's status is that of its last command: Evaluator model of eval_pipeline; general facts and counterexamples. *partial*: `C67_zero`, `C67_success_partial`, `C67_counterexample`.
- **C68** return ends the function: Evaluator model of eval_pipeline; general facts and counterexamples. *partial*: `C68_skips_partial`, `C68_continues`, `C68_counterexample`.
- **C69** Redirections are applied in order to the requested descriptor: Descriptor table and file contents model of eval_redirect. *partial*: `C69_exact`, `C69_redirections_partial`, `C69_counterexample`.
- **C70** A redirection is never lost: Descriptor table and file contents model of eval_redirect. *partial*: `C70_applied_partial`, `C70_lost`, `C70_counterexample`.
- **C71** '>' truncates the file: Descriptor table and file contents model of eval_redirect. *partial*: `C71_overwrites`, `C71_exactly_when`, `C71_output_partial`, `C71_counterexample`.
- **C72** '>>' appends: Descriptor table and file contents model of eval_redirect. *partial*: `C72_appends`, `C72_append_partial`, `C72_counterexample`.
- **C73** PATH search finds the first match: lookup_command over an arbitrary file-system predicate. *partial*: `C73_search`, `C73_found_partial`, `C73_missing_partial`, `C73_counterexample`.
- **C74** A command given as a path is run directly: lookup_command over an arbitrary file-system predicate. *partial*: `C74_counterexample`, `C74_never`, `C74_emptyEntry_partial`.
- **C75** exit ends the shell with the requested status: Builtins modelled one by one with explicit panics on index errors; general theorems and counterexamples; `C78_eval` and `C78_source` reduce those two to the text they evaluate, `C78_fg` decides a waiting `fg` from the reports of the kernel and `C78_export` takes `export` word by word. *proved*: `C75_exit`.
- **C76** A prefix assignment is local to the command: Builtins modelled one by one with explicit panics on index errors; general theorems and counterexamples; `C78_eval` and `C78_source` reduce those two to the text they evaluate, `C78_fg` decides a waiting `fg` from the reports of the kernel and `C78_export` takes `export` word by word. *partial*: `C76_exact`, `C76_prefix_partial`, `C76_counterexample`.
- **C77** Every assignment of a line is performed: Builtins modelled one by one with explicit panics on index errors; general theorems and counterexamples; `C78_eval` and `C78_source` reduce those two to the text they evaluate, `C78_fg` decides a waiting `fg` from the reports of the kernel and `C78_export` takes `export` word by word. *partial*: `C77_counterexample`, `C77_onlyFirst`, `C77_single_partial`.
- **C78** Builtins never crash on missing or odd arguments: Builtins modelled one by one with explicit panics on index errors; general theorems and counterexamples; `C78_eval` and `C78_source` reduce those two to the text they evaluate, `C78_fg` decides a waiting `fg` from the reports of the kernel and `C78_export` takes `export` word by word. *partial*: `C78_counterexample`, `C78_counterexample_lists`, `C78_copes_partial`, `C78_exact_partial`, `C78_fg`, `C78_export`, `C78_eval`, `C78_source`.
- **C79** eval evaluates all its arguments: Builtins modelled one by one with explicit panics on index errors; general theorems and counterexamples; `C78_eval` and `C78_source` reduce those two to the text they evaluate, `C78_fg` decides a waiting `fg` from the reports of the kernel and `C78_export` takes `export` word by word. *partial*: `C79_one_partial`, `C79_ignored`, `C79_counterexample`.
- **C80** source runs a file in the current shell: Builtins modelled one by one with explicit panics on index errors; general theorems and counterexamples; `C78_eval` and `C78_source` reduce those two to the text they evaluate, `C78_fg` decides a waiting `fg` from the reports of the kernel and `C78_export` takes `export` word by word. *partial*: `C80_source_partial`, `C80_missing`, `C80_counterexample`.
- **C81** exec replaces the shell with the named command: Builtins modelled one by one with explicit panics on index errors; general theorems and counterexamples; `C78_eval` and `C78_source` reduce those two to the text they evaluate, `C78_fg` decides a waiting `fg` from the reports of the kernel and `C78_export` takes `export` word by word. *partial*: `C81_exec_partial`, `C81_counterexample`, `C81_all`.
- **C82** A script ends: main.rs functions as list programs; non-termination shown as 'no amount of fuel suffices'. *partial*: `C82_never`, `C82_exit_partial`.
- **C83** -c and script arguments: main.rs functions as list programs; non-termination shown as 'no amount of fuel suffices'. *partial*: `C83_program_partial`, `C83_script_partial`, `C83_interactive`, `C83_counterexample`.
- **C84** Completion lists exactly the matching commands: command_complete as a fold; sortedness, nodup, membership. *partial*: `C84_complete_partial`, `C84_crash`, `C84_counterexample`.
- **C85** Child processes cannot change the shell: Frame theorem: fork/exec/command substitution leave the parent fields unchanged. *proved*: `C85_substitution`, `C85_process`, `C85_external`.
- **C86** An interactive session survives every line: REPL step over the parser and evaluator model. *partial*: `C86_end`, `C86_session_partial`, `C86_composed`, `C86_survives_partial`, `C86_builtins_partial`, `C86_foreground_partial`, `C86_counterexample`.
- **C87** SIGCHLD while the shell accesses its data: Micro-step model (Model/Interleave.lean) of delete_job and the other SHELL accessors against signal arrival; a stack of calls that the handler may interrupt; invariants over all runs.  C87 is false; `C87_when` says exactly when the shell crashes, by a reading of what was done against the borrowing rules (`Spec.Clash`) that does not mention the state of the model, and `C87_readers_partial` gives a class of programs for which it never does. *partial*: `C87_undisturbed_partial`, `C87_exact`, `C87_reads_partial`, `C87_readers_partial`, `C87_when`, `C87_shielded`, `C87_counterexample`, `C87_counterexample_read`.
- **C88** Keyboard and termination signals at the prompt: Signals as inputs of a session (`deliver`); frame relation 'dispositions are only ever reset' over the whole evaluator, hence the two possible tables at every prompt; classification of all signals. *partial*: `C88_interrupt_partial`, `C88_stop`, `C88_ended`, `C88_counterexample`.
- **C89** The shell keeps its signal handlers: Signals as inputs of a session (`deliver`); frame relation 'dispositions are only ever reset' over the whole evaluator, hence the two possible tables at every prompt; classification of all signals. *partial*: `C89_handlers_partial`, `C89_counterexample`.
- **C90** Programs start with a clean signal state: The image of an exec'd program records directory, mask, dispositions and whether it called setpgid; from the theorem on the children of a typed pipeline. *partial*: `C90_fresh_partial`, `C90_sigpipe`, `C90_every_partial`, `C90_sigpipe_every`.
- **C91** Process groups of jobs: The image of an exec'd program records directory, mask, dispositions and whether it called setpgid; from the theorem on the children of a typed pipeline. *partial*: `C91_group_partial`, `C91_separate`.
- **C92** cd and pwd: Builtin equations. *partial*: `C92_cd_partial`, `C92_cdFails`, `C92_pwd`, `C92_variable`.
- **C93** A command with a failing redirection is not run: Induction over the redirections up to the first that fails; builtins are shown to depend on their words only. *partial*: `C93_notRun_partial`, `C93_counterexample`.
- **C94** Redirections of builtins: Induction over the redirections up to the first that fails; builtins are shown to depend on their words only. *partial*: `C94_ignored`, `C94_restored_partial`, `C94_counterexample`.
- **C95** Status of a command killed by a signal: The wait loop followed to the report of the process, for any number of interrupted waits before it; for pipelines and any other jobs in Props/Waiting. *partial*: `C95_returns_partial`, `C95_status`, `C95_counterexample`, `C95_anyJobs_partial`.
- **C96** Stopped commands become jobs: The wait loop followed to the report of the process, for any number of interrupted waits before it; for pipelines and any other jobs in Props/Waiting. *partial*: `C96_stopped_partial`, `C96_anyJobs_partial`, `C96_counterexample`, `C96_fg_partial`.
- **C97** Aliases and builtins: Equations of the evaluator for aliased builtins and for -c. *partial*: `C97_builtin_partial`, `C97_refused`, `C97_program`, `C97_counterexample`.
- **C98** Exit status of rsh -c: Equations of the evaluator for aliased builtins and for -c. *partial*: `C98_exit_partial`, `C98_zero`, `C98_counterexample`.
- **C99** Blanks around operators and comments do not matter: Induction over the layout: each word or operator is one token whatever follows it, unless the two fuse. *proved*: `C99_layout`, `C99_white`.
- **C100** Empty lines and comments do nothing: Induction over the layout: each word or operator is one token whatever follows it, unless the two fuse. *proved*: `C100_blank`, `C100_comment`.
- **C101** Enough room is enough: the order `Le` on computations: equal wherever the smaller one is not cut short; every construct of the evaluator is monotone for it (Proofs/Fuel.lean). *proved*: `C101_line`, `C101_run`.
- **C102** Endless recursion is not bounded: induction on the depth, the state generalised: entering a call keeps the functions, so the body calls again. *proved*: `C102_recursion`.
- **C103** The inherited environment: Model: `CtxMgr.init`, `initSh`, and the whole evaluator with main (Model/Eval, Model/Main), where starting a program is an event with the image's argv, environment, signal state and descriptors.  Proved: `C103_variables` (lookup at the start against the environment and a separate list of defaults), `C103_inherited` by an invariant carried through every function of the evaluator (Proofs/Started.lean: `Safe`, about what is in the trace, in the environment and in the dispositions), for every run of `main`. *proved*: `C103_variables`, `C103_inherited`.
- **C104** Programs get well-formed arguments and environment: Same invariant: `C104_wellformed` for every program of every run of `main` that starts with a well-formed environment. *proved*: `C104_wellformed`.
- **C105** Status of fg: `fg` followed through the whole batch of reports (`fg_exact`): the status is never set, so the property fails for every status but the old one. *partial*: `C105_unchanged`, `C105_counterexample`.
- **C106** Which jobs are background jobs: Invariant of the job table under its operations (`BgOk`): the noted ids are those of the background jobs, as long as no job is continued; the negations by sessions with `bg` and `fg`. *partial*: `C106_ops_partial`, `C106_bgUnknown`, `C106_fgStale`.
- **C107** Whether there are background jobs: Invariant of the job table under its operations (`BgOk`): the noted ids are those of the background jobs, as long as no job is continued; the negations by sessions with `bg` and `fg`. *partial*: `C107_inverted`, `C107_counterexample`.
- **C108** Jobs killed or stopped are announced: The lines written during a batch of reports as a separate relation (`Told` in Spec/Waits.lean), followed by the wait loop; instantiated for one command with arbitrary other jobs. *proved*: `C108_told`, `C108_command`.
- **C109** Background jobs are announced: `background_exact`: the launch of a background pipeline event by event; the description of the job computed from its names. *proved*: `C109_announced`.
- **C110** The variable store keeps what it is given: Model/VarData.lean; refinement of a store of scopes given by relations (Spec/VarData.lean), both ways (`steps_iff`), by induction over the operations; the others follow from it. *proved*: `C110_exact`, `C110_environment`.
- **C111** Local variables hide outer ones: Model/VarData.lean; refinement of a store of scopes given by relations (Spec/VarData.lean), both ways (`steps_iff`), by induction over the operations; the others follow from it. *partial*: `C111_innermost_partial`, `C111_hidden`, `C111_counterexample`.
- **C112** Popping a level restores the variables: Model/VarData.lean; refinement of a store of scopes given by relations (Spec/VarData.lean), both ways (`steps_iff`), by induction over the operations; the others follow from it. *proved*: `C112_restored`.
- **C113** The variable store finds commands along PATH: Model/VarData.lean; refinement of a store of scopes given by relations (Spec/VarData.lean), both ways (`steps_iff`), by induction over the operations; the others follow from it. *proved*: `C113_first`, `C113_path`.
- **C114** Positional parameters in the variable store: Model/VarData.lean; refinement of a store of scopes given by relations (Spec/VarData.lean), both ways (`steps_iff`), by induction over the operations; the others follow from it. *partial*: `C114_pair_partial`, `C114_set_partial`, `C114_counterexample`.
- **C115** Exporting the important variables: Model/VarData.lean, functions on records and maps; splitting and joining at colons are inverse. *proved*: `C115_export`, `C115_default`, `C115_home`, `C115_history`, `C115_update`.
- **C116** Command substitution outside quotes: Violated in every state: Model/Expand.lean, the argument is proved to arrive literally at the program (C116_literal); a session in which nothing is run is the counterexample. *partial*: `C116_literal`, `C116_counterexample`.
- **C117** Prompts and the end of a session: Equations for the loop of Model/Main.lean at every prompt, and for whole sessions by induction over the inputs that were taken. *proved*: `C117_prompt`, `C117_end`.
- **C118** Read-only functions: Model/Context.lean; induction over the operations on one context against a three-state description of each name (Spec/FuncOps.lean); that a name made read-only is lost (C118_lost) is proved for every body. *partial*: `C118_functions_partial`, `C118_lost`.
- **C119** A forked copy of the shell never goes on as a shell: The same invariant as for C103 (Proofs/Started.lean), extended with: the code of a child never comes to its end (`Leaves`), because nothing in it fails with an error that is not caught; the end `returned` exists in the model for this. *proved*: `C119_children`, `C119_session`.
- **C120** Files as namespaces: `bExport`, `createContextFromFile` and the evaluator on a file of assignments in any layout, by induction over the assignments; equations for the forms without a file name; the shell's own variables are a counterexample. *partial*: `C120_any`, `C120_error`, `C120_file_partial`, `C120_counterexample`, `C120_name`, `C120_self`.
- **C121** Signals go only to processes the shell has started: Invariant through every function of the evaluator and main (Proofs/Kills.lean, `KSafe`): every process of every job is a known pid, or -1; the signals in the trace against a predicate on traces (Spec/Kills.lean) that descends into children.  With the assumption that forks and pipes do not fail, -1 is never a process of a job when a line is over or a builtin runs. *partial*: `C121_known_partial`, `C121_any`, `C121_counterexample`.
- **C122** Programs can be written out and read again: Spec/Printing.lean: a predicate for trees of programs and a printer, both by recursion on the trees, apart from the parser.  Proved by induction on the tree: the lexer reads the text as the tokens the grammar wants (`Lexed`), and these derive the tree; conversely every derivation from the tokens of a text gives such a tree (`valOk`), and every word token is one word (`scan_at`). *proved*: `C122_print`, `C122_injective`, `C122_tree`, `C122_words`, `C122_exclusive`, `C122_effect`.
- **C123** Defining and calling functions: Spec/Wholes.lean builds definitions from any tree of a program; with C122 the text of the body is a program of its own, so that the call can be compared with it.  Proved by unfolding the evaluation of a definition and of a call, and by the theorems on contexts of C34 and C70. *proved*: `C123_define`, `C123_call`.
- **C124** Brace groups run their commands: The code refuses every group; C124_refused proves that for all programs. *partial*: `C124_refused`, `C124_counterexample`.
- **C125** Misused builtins are reported: Spec/Misuse.lean lists the calls with their messages, in terms of the words of the call and the job table.  Proved by cases and unfolding each builtin. *proved*: `C125_reported`.
- **C126** Signal handlers act as wholes: The small-step model of C54 and C87 (Model/Interleave.lean) against the handler as the rest of the model runs it, in one piece (Model/Main.lean `sigChldWith`).  Proved by an invariant on the stack of calls (`Abs`) and induction over the run.  The handler that waits for the other processes of a background job is not followed: such a run does not come to the end. *proved*: `C126_wholes`, `C126_returns`.
- **C127** Reading the arguments prints nothing: `argLoop` by induction on the arguments, with its output in the trace; that it cannot hold is proved of whole runs of the shell with the walk over `mainM` (Proofs/Main.lean). *partial*: `C127_partial`, `C127_never`, `C127_said`, `C127_counterexample`.
- **C128** Only cd changes the working directory: A relation between events and directory (Spec/Directory.lean), kept by every step of the evaluator: the frame walk of Proofs/Frame.lean extended to whole runs in Proofs/Main.lean. *proved*: `C128_directory`.
- **C129** Redirections do not touch the shell itself: The same walk with "no opened file among the own events" (all outcomes), and with the descriptor table (Proofs/Static.lean) when pipes can be created; in any world (Proofs/Leaks.lean) only reading ends of pipes can be left open besides. *proved*: `C129_opened`, `C129_streams`, `C129_anyPipes`.
- **C130** Start-up files: In every run the first file read is literally `~/.rshrc` (walk over the whole run, Proofs/Frames.lean); reading a start-up file is exact for every file whose evaluation gives no error, and a crash for every other one; counterexamples: the home directory is not looked at, an error in the file crashes the shell. *partial*: `C130_first`, `C130_evaluated_partial`, `C130_error`, `C130_counterexample`.
- **C131** Listings: Induction over the aliases and the environment; the listing typed again by C24 on the lines it consists of. `alias` alone crashes for every state; a value with a single quote is listed as a line that does not define it. *partial*: `C131_aliases_partial`, `C131_environment`, `C131_counterexample`, `C131_again_partial`, `C131_quote`.
- **C132** Splitting a command at its blanks: Model/Unused.lean (a function nothing calls). Induction over the words with the state of the loop; `Splits` (Spec/Unused.lean) says what the words are. Exactly when it crashes is proved; counterexamples for quoted single words and for two phrases. *partial*: `C132_split_partial`, `C132_single`, `C132_crash`, `C132_counterexample`.
- **C133** Removing quotes from a command: Model/Unused.lean (functions nothing calls). Every word is exactly one of `Bared`'s cases; in double quotes `$` loses the next character (counterexample). *partial*: `C133_quotes_partial`, `C133_bared`, `C133_counterexample`.
- **C134** Expanding the substitutions of a command: Model/Unused.lean (a function nothing calls). Induction over the words: places and number of words, for every outcome of the substitutions; identity without substitutions; the outputs take the places of the substitutions, from left to right, each evaluated by a copy of the shell in the state left by the one before (`C134_outputs_partial`, with `evalSubshell_any` of C25); counterexample for an assignment with `=` in the substitution. *partial*: `C134_outputs_partial`, `C134_none`, `C134_places_partial`, `C134_counterexample`.
- **C135** Reading up to the second delimiter: Model/Unused.lean (a function nothing calls). For every text it is the same as `take_until`, which stops before the first delimiter: the property fails whenever there is one. *partial*: `C135_none_partial`, `C135_counterexample`.
- **C136** A refused pipe: Proofs/Leaks.lean: a walk over whole sessions in any world shows that the table of descriptors is the standard one plus leaked reading ends. Proofs/Refused.lean: the fork loop with any mixture of granted and refused processes, up to the first refused pipe. For every pipeline and every point of refusal the theorem says exactly what is reported and what is left behind. The property fails: the job, the read end of the last pipe and the blocked signals stay (counterexample). *partial*: `C136_refused_partial`, `C136_open`, `C136_counterexample`.
- **C137** A refused process: Proofs/Refused.lean, as for C136, and the wait that follows. For every pipeline whose processes are all refused: nothing is printed, the job is deleted again and the line counts as a success (foreground), or a job with pid -1 is announced (background); a substitution whose process or pipe is refused ends the shell. The property fails in each of these. *partial*: `C137_silent_partial`, `C137_counterexample`, `C137_background`, `C137_substitution`.
- **C138** The history file: Whole runs: the walk of Proofs/Main.lean with `Unsaved` before the last act and `SavedLast` after it (the history is written at most once, by the last event, in every run of every kind). For sessions that end with the input or with `exit` it is written, in the current directory. Counterexamples: `cd`, a crash, `exec`, a signal, and a forked copy that runs `exit`. *partial*: `C138_once`, `C138_written_partial`, `C138_counterexample`.
- **C139** A variable that is not set: The code violates it for every name: `C139_literal` (end-to-end, argv of the started program) shows that `$NAME` arrives as typed. *partial*: `C139_literal`, `C139_any`, `C139_counterexample`.
- **C140** The status of the last command: The code violates it at every prompt: `C140_blind` gives the argument as a function of the variable `?` alone. *partial*: `C140_blind`, `C140_counterexample`.
- **C141** Parts written together form one word: The code violates it: `C141_separate`, `C141_name` (parts that touch are separate arguments, for all lines whose parts the lexer separates) and `C141_quotes` (quotes inside a word are passed on), on the model of the lexer, parser and evaluator; concrete sessions as counterexamples. *partial*: `C141_separate`, `C141_name`, `C141_quotes`, `C141_any`, `C141_counterexample`.
- **C142** Interrupting a command substitution: The world tells which signal arrives while the shell waits for a substitution; the wait fails with EINTR when a handler runs, and the code unwraps it. End to end over lines with a quoted substitution of any text. *partial*: `C142_interrupt`, `C142_stop`, `C142_held_partial`, `C142_counterexample`.
- **C143** The interrupt key does not let other signals in: The interleaving model with SIGINT: its handler is one step that clears the mask. Simulation of the model without it; the invariant on loans carries over. *partial*: `C143_shielded_partial`, `C143_lets_in`, `C143_counterexample`, `C143_exact`.
- **C144** Only export changes the environment: The names of the commands of a text are read off its parse (Spec/Named.lean). Walk through the evaluator (Proofs/Calm.lean) with an invariant: functions have no command named in the list, no builtin has an alias; a builtin without alias keeps its name when it is expanded. The environment is equal after each step. *proved*: `C144_line`, `C144_session`.
- **C145** The shell reads files only on request: The names of the commands of a text are read off its parse (Spec/Named.lean). Walk through the evaluator (Proofs/Calm.lean) with an invariant: functions have no command named in the list, no builtin has an alias; a builtin without alias keeps its name when it is expanded. The events added are none that read or open. *proved*: `C145_line`, `C145_session`.
- **C146** Only fg and bg send signals: The names of the commands of a text are read off its parse (Spec/Named.lean). Walk through the evaluator (Proofs/Calm.lean) with an invariant: functions have no command named in the list, no builtin has an alias; a builtin without alias keeps its name when it is expanded. The events added include no kill. *proved*: `C146_line`, `C146_session`.
- **C147** Only exit and exec end the shell: The names of the commands of a text are read off its parse (Spec/Named.lean). Walk through the evaluator (Proofs/Calm.lean) with an invariant: functions have no command named in the list, no builtin has an alias; a builtin without alias keeps its name when it is expanded. The outcome is neither exit nor exec; the exit after a missing function is shown to be unreachable. *proved*: `C147_line`, `C147_session`, `C147_replaced`.
- **C148** Directory and aliases change only by name: The names of the commands of a text are read off its parse (Spec/Named.lean). Walk through the evaluator (Proofs/Calm.lean) with an invariant: functions have no command named in the list, no builtin has an alias; a builtin without alias keeps its name when it is expanded. The directory and the aliases are equal after each step. *proved*: `C148_directory`, `C148_line`, `C148_aliases`.
- **C149** The interrupt key during a foreground command: Model/CtrlC.lean: the evaluation of a pipeline with the handler of SIGINT, and if the command has ended by then that of SIGCHLD, run between the start of the processes and the wait. Proved for every command and session: what the shell does when the status is collected by the handler and no other child runs, when another one runs (it waits on), when the command ends later, and when descriptor 0 cannot be written to. *partial*: `C149_collected_partial`, `C149_stuck`, `C149_crash`, `C149_later_partial`.
- **C150** Builtins start no process: A frame over the evaluator for the relation 'no process was started in between', instantiated for the builtins alone (nested evaluation is excluded), together with the walk of C144 for the aliases; lines and whole sessions, also with signals. *proved*: `C150_line`, `C150_session`.
- **C151** Only assignments change variables: The walk of C144 also shows which operations on contexts such lines perform: pushes, pops, function definitions and assignments to numbered names. Induction over such sequences: variables of old contexts stay, new contexts have none, old contexts do not come back onto the stack. *proved*: `C151_variables`.
- **C152** export with several words is one export per word: A word other than `-p…` and `context` either ends plainly or crashes, leaving aliases and mask alone; so the walk over the words splits into lines (induction on the words). Fails for later words that would be options if they came first (`C152_counterexample`). *partial*: `C152_split_partial`, `C152_each_partial`, `C152_counterexample`.
- **C153** No argument of a builtin is silently ignored: Violated by the code: `C153_ignored` gives, for every builtin, the words it looks at and proves that a call with more words is the call with those alone. `alias` alone treats every word (`C153_aliases_partial`, induction on the words). *partial*: `C153_ignored`, `C153_counterexample`, `C153_aliases_partial`.
- **C154** Only definitions and unset change functions: The walk of C144 carries a relation between contexts (`SameFuns`): contexts that existed have the same functions, new ones none, contexts once left do not come back. A definition counts as a command named `()`. *proved*: `C154_functions`.
- **C155** Programs without recursion end: A walk (`Roomy rank m`, Proofs/Room.lean) through the evaluator by induction on the number of levels: a list of level k evaluated with more than k levels of room never ends as `deep` and keeps the ranks of the functions of the shell. C101 then gives independence of further room. *proved*: `C155_line`, `C155_same`, `C155_run`.
- **C156** Redirections and assignments around function calls: Violated in the foreground: the line is proved equal, as a function of the state, to the call alone (`C156_ignored`); what holds is that nothing remains afterwards. A redirection written with the definition is also ignored (counterexample; C123 holds for all of them). *partial*: `C156_ignored`, `C156_restored_partial`, `C156_counterexample`.
- **C157** Functions named like builtins and programs: Violated for builtins: a line with a builtin never evaluates a nested list, whatever functions there are, whereas a call of a function does. The part that holds, about programs, follows from C123. *partial*: `C157_builtinFirst`, `C157_call`, `C157_function_partial`, `C157_counterexample`.
- **C158** Jobs can be named by number or by process: `names_find`: the lookup of a job depends on the argument only through the job it names; both lines are then equal as functions of the state. *proved*: `C158_names`.
- **C159** Scripts do what typed lines do: Both loops evaluate the parsed line the same way (`evalText`), so a line without an error makes equal transitions; induction over sequences of lines. The code drops errors in scripts and stops at a line that is not accepted (`C159_silent`, `C159_syntax`), so the property itself fails. *partial*: `C159_line_partial`, `C159_lines_partial`, `C159_silent`, `C159_syntax`.
- **C160** Only programs named in the input are run: A walk (`Only P`) through the evaluator and `main` that carries what is known of the functions and of all events, into every forked copy (`runChild`): a program is started by `tempExecve` only, with the name of the command, which expansion of a literal name leaves alone. *proved*: `C160_line`, `C160_run`, `C160_builtins`.
- **C161** Sessions of external commands follow the usual rules: A small reference interpreter (`play`, Spec/Reference.lean) says which pipelines run and with which status, given the exit statuses of the processes in order. By induction over lines, chains and pipelines the shell does the same; one pipeline is `foreground_run`, extended by what it leaves of the schedule of `waitpid` results. *proved*: `C161_session`.
- **C162** Sessions with variables and directories follow a reference interpreter: The reference interpreter (`MiniWorld.session`, Spec/Mini.lean) has a state of variables, directory, status and what was run, and is a fold over lines, chains and steps. A simulation relation (`Sim`, Proofs/Mini.lean) is kept by each step: an assignment by `C29_assign`, cd by evaluating the builtin, a pipeline by `play_pipe` of C161 applied to the current state. *proved*: `C162_session`.
- **C163** Only files named in the input are opened: A walk (`Opening F`) like that of C160, for the events of opening and reading files: files are opened by `evalRedirects` only, with the names of the redirections of the command, which expansion leaves alone. *proved*: `C163_line`, `C163_run`, `C163_none`.
- **C164** Sessions with functions follow a reference interpreter: The reference interpreter (`FnWorld.session`, Spec/Fns.lean) has a stack of scopes and a table of function bodies; the depth of calls is its only fuel. The relation `FnSim` (Proofs/FnSim.lean) is kept by each step; steps that are no calls are reduced to those of C162 (`mini_step_ctx`), `export`, `unset`, `exit`, `return`, `source` and `eval` are evaluated directly (`fn_export`, `fn_unset`, `fn_exit`, `fn_return`, `fn_source`, `fn_eval`, and `fn_other` for builtins that only write or fail; what is in the files and how the texts parse are hypotheses, `FileIs` and `TextIs`), the functions of a pipeline by `fn_calls` and its programs by `rest_run` (`fn_start`, Proofs/Rest.lean), with assignments and redirections by `rest_rrun` (`fn_startFull`); commands that do not exist are among them (`kids_existing`); how a line ends is compared by `FnEnds`, calls use `evalFunction_eq` and induction on the depth (`fn_body`). Definitions are lines by `define_line`; that the bodies are programs of the grammar is proved (`fn_program`). What the shell itself writes is compared with `FnWorld.talk`: within a line the field `own` of `FnSim` says what was printed so far (`FnState.said`), `fn_line` adds prompts and messages. `C164_depth`: the depth given to the reference does not matter, by monotony in how bodies are run. *proved*: `C164_depth`, `C164_session`.
- **C165** Scripts follow a reference interpreter from the start of the shell to its end: The shell is started by `mainM` from a fresh state; `main_script` (C83) gives the state in which the script is read, `begun_sim` shows that it is related to the initial state of the reference, `start_files` runs the start-up files, `fn_script` is an induction on the lines of the script with `fn_line` of C164, and C82 and C98 give the end. What the shell itself writes is put together in `wrote_all` from `parseArgs_told` (as C127) and `FnWorld.wholeTalk`. *proved*: `C165_script`, `C165_script_endless`, `C165_program`.
- **C166** Interactive sessions follow a reference interpreter from the start of the shell to its end: As C165, with `C83_interactive` for the start, `interact_run` for the handlers (which do not change what programs inherit) and `fn_session` of C164 for the lines. *proved*: `C166_exit`, `C166_eof`.
- **C167** A start-up file that fails crashes the shell, after doing what it says up to there: As C165, with `fn_line` of C164 for the file that fails (`start_file_stop`): the error becomes a panic (`unwrap`), and C83 gives the way from the start of the shell to the start-up files. *proved*: `C167_script`, `C167_others`.
- **C168** Redirections and assignments within pipelines: `line_children` (C70) gives the children of a pipeline; each child is the run of its command in a fresh copy with its pipe ends in place (`KidOk.rcmd`), so that `RCmd.applied_kept` (C69) says what redirections make of them; `Wired` (Spec/Wiring.lean) states the result by channels: the file of the last redirection, else the pipe, else what the shell has. *proved*: `C168_members`.

## Axioms

As printed by `#print axioms`.

**none**: C71_counterexample, C115_history, C132_counterexample.

**propext**: C11_counterexample, C11_blank_partial, C12_counterexample, C13_counterexample, C14_counterexample, C15_syntaxError, C17_any, C18_any, C19_characterLost, C20_quotes, C21_covered, C21_executed, C22_counterexample, C23_counterexample, C24_equals, C24_dashP, C24_dashA, C25_counterexample, C26_counterexample, C27_counterexample, C30_counterexample, C31_counterexample, C32_counterexample, C33_counterexample, C34_counterexample, C35_counterexample, C36_counterexample, C39_counterexample, C40_counterexample, C41_counterexample, C44_deleteByPid_partial, C44_deleteMissing, C44_stoppedPipelineLost_session, C46_created_partial, C46_crash_session, C47_text_partial, C47_empty_partial, C47_crash, C47_crash_session, C48_crash_background, C48_crash_pipeline, C50_counterexample, C51_counterexample, C52_noPid, C52_counterexample, C53_counterexample, C54_shielded, C54_deletes, C54_counterexample, C57_determined, C59_counterexample, C60_counterexample, C63_counterexample, C64_counterexample, C66_counterexample, C67_counterexample, C68_counterexample, C69_counterexample, C70_counterexample, C72_appends, C72_counterexample, C73_counterexample, C74_counterexample, C76_counterexample, C77_counterexample, C78_counterexample, C78_counterexample_lists, C79_counterexample, C80_counterexample, C81_counterexample, C83_counterexample, C85_substitution, C86_counterexample, C87_when, C87_shielded, C87_counterexample, C87_counterexample_read, C88_counterexample, C93_counterexample, C94_counterexample, C95_counterexample, C96_counterexample, C97_counterexample, C98_counterexample, C101_line, C101_run, C105_counterexample, C106_bgUnknown, C106_fgStale, C107_counterexample, C110_environment, C111_counterexample, C114_counterexample, C115_default, C115_update, C116_counterexample, C120_error, C120_counterexample, C121_counterexample, C122_exclusive, C124_counterexample, C127_partial, C127_counterexample, C130_evaluated_partial, C130_error, C130_counterexample, C131_quote, C132_single, C133_counterexample, C134_counterexample, C136_counterexample, C137_counterexample, C138_counterexample, C139_any, C139_counterexample, C140_counterexample, C141_any, C141_counterexample, C143_shielded_partial, C143_lets_in, C143_counterexample, C152_counterexample, C153_counterexample, C156_counterexample, C157_counterexample, C159_line_partial, C159_lines_partial, C159_silent, C159_syntax.

**propext, Quot.sound**: C03_star_rejected, C05_comment, C05_leading_comment, C07_quoted, C07_substitution, C07_unclosed, C07_substitution_unclosed, C07_anywhere, C13_amp_command_rejected, C14_reserved_rejected, C26_splits_partial, C28_innermost, C35_stack_partial, C36_stack_partial, C36_reachable, C37_namespaces, C41_environment, C41_unset_partial, C42_define, C42_remove, C43_newIdUnused, C43_session, C44_stoppedPipelineLost, C46_latest_partial, C46_current_partial, C47_order_partial, C48_reap_partial, C53_external_partial, C54_undisturbed_partial, C54_inevitable, C56_again, C71_overwrites, C71_exactly_when, C73_search, C74_never, C82_never, C82_exit_partial, C84_crash, C84_counterexample, C85_process, C86_session_partial, C87_undisturbed_partial, C87_reads_partial, C87_readers_partial, C89_counterexample, C90_every_partial, C90_sigpipe_every, C100_comment, C103_inherited, C104_wellformed, C107_inverted, C113_first, C115_home, C118_functions_partial, C118_lost, C119_children, C119_session, C126_wholes, C126_returns, C127_never, C128_directory, C129_opened, C130_first, C132_crash, C133_quotes_partial, C133_bared, C134_outputs_partial, C134_none, C134_places_partial, C135_none_partial, C135_counterexample, C138_once, C142_counterexample, C155_line, C155_same, C155_run, C160_line, C160_run, C160_builtins, C163_line, C163_run, C163_none.

**propext, Classical.choice, Quot.sound**: C01_lex_total, C01_lex_eof, C02_spans, C03_star, C04_leading_blanks, C04_which, C04_blanks, C04_blank_runs, C06_plain_line, C08_unambiguous, C08_parse_none, C09_left_chain, C10_balanced, C11_leading_separator_rejected, C12_trailing_partial, C12_semi_newline_rejected, C13_amp_sep_partial, C14_reserved_line_rejected, C14_arguments_partial, C16_argv, C17_singleQuotes, C18_doubleQuotes, C19_dollar_partial, C19_crash, C20_var_partial, C21_notExecuted_partial, C22_plain_partial, C22_notExpanded, C22_dollarName, C23_alias_partial, C23_order, C24_aliases_partial, C24_refused, C24_several, C25_substitution_partial, C25_large, C25_any_partial, C25_stuck, C26_panics, C26_words, C27_trim_partial, C27_lone, C29_assign, C30_value_partial, C31_readonly_partial, C31_visible_partial, C31_session_partial, C32_accepted_partial, C32_crash, C33_parameters_partial, C33_exact, C33_digits, C33_always, C33_crashes, C34_restored_partial, C38_shares, C39_export_partial, C39_received, C39_stays, C40_visible_partial, C40_environment, C41_line, C42_line, C44_delete_partial, C45_found, C45_forgotten, C45_session, C46_crash, C48_single_partial, C48_foreground_partial, C48_crash, C49_status, C50_all_partial, C50_early, C51_noOther_partial, C51_other, C52_bg_partial, C52_fg_partial, C52_unknown, C52_fgExits_partial, C53_fgbg, C53_cd, C53_builtin, C54_exact, C55_terminated, C55_stopped, C55_others, C56_install, C57_chain, C57_programs, C58_list, C58_lines, C58_programs, C59_stops, C59_goesOn_partial, C60_runs_partial, C61_plumbed, C62_restored, C62_restoredError, C62_prompt, C62_noFailure, C63_external_partial, C63_ignored, C64_first_partial, C64_anyJobs_partial, C65_background, C66_runs_partial, C67_zero, C67_success_partial, C68_skips_partial, C68_continues, C69_exact, C69_redirections_partial, C70_applied_partial, C70_lost, C71_output_partial, C72_append_partial, C73_found_partial, C73_missing_partial, C74_emptyEntry_partial, C75_exit, C76_exact, C76_prefix_partial, C77_onlyFirst, C77_single_partial, C78_copes_partial, C78_exact_partial, C78_fg, C78_export, C78_eval, C78_source, C79_one_partial, C79_ignored, C80_source_partial, C80_missing, C81_exec_partial, C81_all, C83_program_partial, C83_script_partial, C83_interactive, C84_complete_partial, C85_external, C86_end, C86_composed, C86_survives_partial, C86_builtins_partial, C86_foreground_partial, C87_exact, C88_interrupt_partial, C88_stop, C88_ended, C89_handlers_partial, C90_fresh_partial, C90_sigpipe, C91_group_partial, C91_separate, C92_cd_partial, C92_cdFails, C92_pwd, C92_variable, C93_notRun_partial, C94_ignored, C94_restored_partial, C95_returns_partial, C95_status, C95_anyJobs_partial, C96_stopped_partial, C96_anyJobs_partial, C96_fg_partial, C97_builtin_partial, C97_refused, C97_program, C98_exit_partial, C98_zero, C99_layout, C99_white, C100_blank, C102_recursion, C103_variables, C105_unchanged, C106_ops_partial, C108_told, C108_command, C109_announced, C110_exact, C111_innermost_partial, C111_hidden, C112_restored, C113_path, C114_pair_partial, C114_set_partial, C115_export, C116_literal, C117_prompt, C117_end, C120_any, C120_file_partial, C120_name, C120_self, C121_known_partial, C121_any, C122_print, C122_injective, C122_tree, C122_words, C122_effect, C123_define, C123_call, C124_refused, C125_reported, C127_said, C129_streams, C129_anyPipes, C131_aliases_partial, C131_environment, C131_counterexample, C131_again_partial, C132_split_partial, C136_refused_partial, C136_open, C137_silent_partial, C137_background, C137_substitution, C138_written_partial, C139_literal, C140_blind, C141_separate, C141_name, C141_quotes, C142_interrupt, C142_stop, C142_held_partial, C143_exact, C144_line, C144_session, C145_line, C145_session, C146_line, C146_session, C147_line, C147_session, C147_replaced, C148_directory, C148_line, C148_aliases, C149_collected_partial, C149_stuck, C149_crash, C149_later_partial, C150_line, C150_session, C151_variables, C152_split_partial, C152_each_partial, C153_ignored, C153_aliases_partial, C154_functions, C156_ignored, C156_restored_partial, C157_builtinFirst, C157_call, C157_function_partial, C158_names, C161_session, C162_session, C164_depth, C164_session, C165_script, C165_script_endless, C165_program, C166_exit, C166_eof, C167_script, C167_others, C168_members.
