{"id": "C01", "title": "Lexing is total and ends with one EOF", "statement": "Feeding any text to the lexer never panics (every slice it takes lies on character boundaries), produces finitely many items (at most one per character, plus one), and, when no character is rejected, the last token and only the last token is EOF.", "quantifier": "all input texts (any Unicode characters, any length)", "why_tests_cant": "The set of inputs is infinite; a test only samples it.", "anchors": ["src/lexer.rs: Lexer::next, take_until, take_until_alt, word, newline_list"]}
{"id": "C02", "title": "Token spans quote the source exactly", "statement": "Every word token carries exactly the source text between its reported start and end byte offsets; tokens are reported in source order, with non-empty, non-overlapping spans that lie inside the input.", "quantifier": "all input texts and all tokens produced from them", "why_tests_cant": "The set of inputs is infinite; a test only samples it.", "anchors": ["src/lexer.rs: Lexer::next, advance, take_until, take_until_alt"]}
{"id": "C03", "title": "An unquoted star is the only lexical error", "statement": "The lexer rejects an input only at a '*' character, the reported position is the position of that '*', and an input without '*' is never rejected.", "quantifier": "all input texts", "why_tests_cant": "The set of inputs is infinite; a test only samples it.", "anchors": ["src/lexer.rs: Lexer::next, is_word_start, is_word_continue, Error::UnrecognizedChar"]}
{"id": "C04", "title": "Blanks between tokens are insignificant", "statement": "Blanks (whitespace other than newline) before a token do not change the tokens that follow, only their positions.", "quantifier": "all input texts and all non-empty runs of blanks", "why_tests_cant": "The set of inputs is infinite; a test only samples it.", "anchors": ["src/lexer.rs: Lexer::next"]}
{"id": "C05", "title": "Comments do not produce tokens", "statement": "A comment, from a '#' that starts a token to the end of the line, contributes no token: the token sequence is the one of the text after the comment.", "quantifier": "all comment texts and all following texts", "why_tests_cant": "The set of inputs is infinite; a test only samples it.", "anchors": ["src/lexer.rs: Lexer::next ('#' arm)"]}
{"id": "C06", "title": "A line of plain words lexes to those words", "statement": "A command line made of plain words separated by blanks is tokenised to exactly those words, in order, followed by EOF.", "quantifier": "all lists of plain words and all blank separators", "why_tests_cant": "The set of inputs is infinite; a test only samples it.", "anchors": ["src/lexer.rs: Lexer::word, take_while, is_word_continue"]}
{"id": "C07", "title": "Quoted tokens run to the first matching delimiter", "statement": "A token opened by ', \", ` or $( contains everything up to and including the first following closing delimiter, whatever characters are in between (or the rest of the input if it is never closed).", "quantifier": "all texts between the delimiters, all following texts", "why_tests_cant": "The set of inputs is infinite; a test only samples it.", "anchors": ["src/lexer.rs: single_quote, double_quote, subshell, take_until_alt"]}
{"id": "C08", "title": "The grammar is unambiguous and decidable", "statement": "Every token sequence has at most one abstract syntax tree, and the modelled parser finds it exactly when the grammar derives one.", "quantifier": "all token sequences", "why_tests_cant": "The set of inputs is infinite; a test only samples it.", "anchors": ["src/grammar.lalrpop: CompleteCommand and all nonterminals"]}
{"id": "C09", "title": "&& and || chain to the left with equal precedence", "statement": "c1 op1 c2 op2 c3 ... parses to the left-nested and-or tree whose pipelines are c1, c2, c3, ... and whose operators are op1, op2, ...; '|' binds tighter than both.", "quantifier": "all and-or chains of any length", "why_tests_cant": "The set of inputs is infinite; a test only samples it.", "anchors": ["src/grammar.lalrpop: AndOr, Pipeline, PipelineSeq"]}
{"id": "C10", "title": "Braces and parentheses are balanced in accepted programs", "statement": "If the parser accepts an input then every '{' token has its '}' and every '(' token is immediately followed by ')'.", "quantifier": "all accepted token sequences", "why_tests_cant": "The set of inputs is infinite; a test only samples it.", "anchors": ["src/grammar.lalrpop: BraceGroup, FunctionDefinition"]}
{"id": "C11", "title": "Leading blank lines and comment lines are accepted", "statement": "A program that begins with an empty line, a comment line or a ';' means the same as the program without it.", "quantifier": "all programs", "why_tests_cant": "The set of inputs is infinite; a test only samples it.", "anchors": ["src/grammar.lalrpop: CompleteCommand, Separator", "src/lexer.rs: newline_list, EOF"]}
{"id": "C12", "title": "A command list may end with ';' and a newline", "statement": "Appending ';' and/or a newline to an accepted command list does not change its meaning.", "quantifier": "all command lists", "why_tests_cant": "The set of inputs is infinite; a test only samples it.", "anchors": ["src/grammar.lalrpop: CompleteCommand, Separator"]}
{"id": "C13", "title": "& separates commands", "statement": "'a & b' starts a in the background and then runs b.", "quantifier": "all pairs of commands", "why_tests_cant": "The set of inputs is infinite; a test only samples it.", "anchors": ["src/grammar.lalrpop: Pipeline, CmdSepOp, CmdBackgroundOp"]}
{"id": "C14", "title": "Reserved words are ordinary words outside command position", "statement": "A reserved word (for, in, while, if, then, else, elif, fi, do, done, case, esac) may be passed as an argument, as in 'echo done'.", "quantifier": "all argument positions and all reserved words", "why_tests_cant": "The set of inputs is infinite; a test only samples it.", "anchors": ["src/lexer.rs: word", "src/grammar.lalrpop: Suffix, Word"]}
{"id": "C15", "title": "A syntax error has no effect", "statement": "When an interactive line does not parse, no command of it runs and every variable, function, alias, job and setting is as before.", "quantifier": "all shell states and all unparsable lines", "why_tests_cant": "It must hold from every reachable shell state and for every operation sequence; tests sample a few histories.", "anchors": ["src/main.rs: interactive_loop", "src/grammar.lalrpop: CompleteCommand"]}
{"id": "C16", "title": "argv fidelity", "statement": "Typing plain words w0 w1 ... wn, where w0 is not a builtin, alias or function, starts exactly one process whose argv is exactly [w0, ..., wn].", "quantifier": "all lists of plain words, all shell states", "why_tests_cant": "The set of inputs is infinite; a test only samples it.", "anchors": ["src/lexer.rs", "src/grammar.lalrpop", "src/ast.rs: alias_lookup, expand_vars, eval, argv", "src/eval.rs: eval_simple_command, eval_pipeline"]}
{"id": "C17", "title": "Single quotes preserve text verbatim", "statement": "An argument 'text' reaches the command as text, byte for byte, for every text without a single quote.", "quantifier": "all texts without \"'\"", "why_tests_cant": "The set of inputs is infinite; a test only samples it.", "anchors": ["src/lexer.rs: single_quote", "src/ast.rs: SimpleCommand::eval, cut_quotes"]}
{"id": "C18", "title": "Double quotes preserve ordinary text", "statement": "An argument \"text\" reaches the command as text, for every text without '\"', '$' or '`' (blanks, newlines, operators and comment characters included).", "quantifier": "all such texts", "why_tests_cant": "The set of inputs is infinite; a test only samples it.", "anchors": ["src/lexer.rs: double_quote", "src/ast.rs: eval_double_quotes, cut_quotes"]}
{"id": "C19", "title": "A dollar sign inside double quotes is harmless", "statement": "Inside double quotes a '$' that does not start a command substitution is kept or expanded, but no other character is lost and the shell does not crash.", "quantifier": "all double-quoted texts containing '$'", "why_tests_cant": "The set of inputs is infinite; a test only samples it.", "anchors": ["src/ast.rs: cut_quotes, create_subshell"]}
{"id": "C20", "title": "$NAME expands to the value, as one word", "statement": "An argument $NAME is replaced by the value of NAME as one single argument, with no splitting, whatever blanks it contains.", "quantifier": "all variable names, all values, all shell states", "why_tests_cant": "The set of inputs is infinite; a test only samples it.", "anchors": ["src/ast.rs: expand_vars", "src/context.rs: ContextManager::get_var"]}
{"id": "C21", "title": "Variable contents are never executed", "statement": "Expanding a variable as an argument never runs a command contained in its value.", "quantifier": "all values of all variables", "why_tests_cant": "The set of inputs is infinite; a test only samples it.", "anchors": ["src/ast.rs: expand_vars, eval, eval_double_quotes, eval_subshell"]}
{"id": "C22", "title": "Assignments expand variables on the right-hand side", "statement": "X=$Y gives X the value of Y.", "quantifier": "all names and values", "why_tests_cant": "The set of inputs is infinite; a test only samples it.", "anchors": ["src/ast.rs: expand_vars (prefix branch)"]}
{"id": "C23", "title": "Alias expansion keeps argument order", "statement": "Running alias name a=V with arguments args runs the words of V followed by args.", "quantifier": "all alias values and all arguments", "why_tests_cant": "The set of inputs is infinite; a test only samples it.", "anchors": ["src/ast.rs: alias_lookup", "src/shell.rs: lookup_alias"]}
{"id": "C24", "title": "Aliases behave as a map", "statement": "After any sequence of alias, unalias and unalias -a operations the value looked up for a name is the one given by the last definition not yet removed, and definitions of other names are unaffected; lookup splits the value at blanks.", "quantifier": "all operation sequences", "why_tests_cant": "It must hold from every reachable shell state and for every operation sequence; tests sample a few histories.", "anchors": ["src/shell.rs: add_alias, lookup_alias, remove_alias, clear_aliases", "src/builtins.rs: alias, unalias"]}
{"id": "C25", "title": "Command substitution yields the command's output", "statement": "\"$(cmd)\" is replaced by the output of cmd with surrounding blanks removed, for output of any size.", "quantifier": "all commands and all outputs of any size", "why_tests_cant": "The set of inputs is infinite; a test only samples it.", "anchors": ["src/ast.rs: eval_subshell, cut_quotes, eval_double_quotes"]}
{"id": "C26", "title": "Splitting a command name respects quotes", "statement": "The name of a command is split at blanks outside quotes only: no piece contains an unquoted blank and the pieces, with the separating blanks, give back the name; splitting never panics.", "quantifier": "all command-name texts", "why_tests_cant": "The set of inputs is infinite; a test only samples it.", "anchors": ["src/ast.rs: split_whitespace_ig_qts, SimpleCommand::eval"]}
{"id": "C27", "title": "Quote trimming is safe", "statement": "Removing the quotes of a value never panics, removes exactly one pair of matching outer quotes and leaves every other text unchanged.", "quantifier": "all texts", "why_tests_cant": "The set of inputs is infinite; a test only samples it.", "anchors": ["src/context.rs: Context::trim", "src/shell.rs: Shell::trim", "src/builtins.rs: trim"]}
{"id": "C28", "title": "Variable lookup is innermost-first", "statement": "Looking up an unqualified name returns the binding of the innermost context on the stack that has one, and nothing if no context has one.", "quantifier": "all context stacks and names", "why_tests_cant": "It must hold from every reachable shell state and for every operation sequence; tests sample a few histories.", "anchors": ["src/context.rs: ContextManager::get_var"]}
{"id": "C29", "title": "Assignment updates the visible binding only", "statement": "Assigning NAME=value makes the next lookup of NAME return value (quotes trimmed) and does not change the lookup of any other name, of any exported namespace not sharing that context, or the stack depth; if NAME was visible its existing binding is updated, otherwise it is created in the current context.", "quantifier": "all context stacks, names and values without '=' (see C30) that are not one lone quote character (see C27)", "why_tests_cant": "It must hold from every reachable shell state and for every operation sequence; tests sample a few histories.", "anchors": ["src/context.rs: ContextManager::add_var, Context::add_var"]}
{"id": "C30", "title": "Assignment keeps the whole value", "statement": "After NAME=value, looking NAME up gives the complete value, including any '=' it contains.", "quantifier": "all values", "why_tests_cant": "The set of inputs is infinite; a test only samples it.", "anchors": ["src/context.rs: Context::add_var", "src/ast.rs: expand_vars", "src/builtins.rs: export"]}
{"id": "C31", "title": "Read-only variables never change", "statement": "Once a variable is read-only, no assignment, export, readonly or unset changes or removes its value while its context is live.", "quantifier": "all operation sequences", "why_tests_cant": "It must hold from every reachable shell state and for every operation sequence; tests sample a few histories.", "anchors": ["src/context.rs: add_var, add_var_readonly, add_var_pos, remove_var"]}
{"id": "C32", "title": "Setting a numeric (positional) name never crashes", "statement": "Setting a positional parameter to any text is accepted.", "quantifier": "all positions and all texts", "why_tests_cant": "The set of inputs is infinite; a test only samples it.", "anchors": ["src/context.rs: ContextUtils<&str>::add_var (digit key)", "src/eval.rs: eval_function"]}
{"id": "C33", "title": "Positional parameters are the call's arguments", "statement": "While a function called with arguments a1 ... an runs, $0 is its name and $i is ai.", "quantifier": "all functions, argument lists and shell states", "why_tests_cant": "It must hold from every reachable shell state and for every operation sequence; tests sample a few histories.", "anchors": ["src/eval.rs: eval_function", "src/context.rs: add_var"]}
{"id": "C34", "title": "A function call restores the caller's positional parameters", "statement": "After a function returns, the caller's $0, $1, ... have their previous values.", "quantifier": "all functions, argument lists and shell states", "why_tests_cant": "It must hold from every reachable shell state and for every operation sequence; tests sample a few histories.", "anchors": ["src/eval.rs: eval_function", "src/context.rs: add_var, pop_context"]}
{"id": "C35", "title": "Function calls keep the context stack balanced", "statement": "Whatever its body does (failing commands included), a function call that returns leaves the context stack exactly as it was, and the global context is never popped.", "quantifier": "all function bodies and shell states", "why_tests_cant": "It must hold from every reachable shell state and for every operation sequence; tests sample a few histories.", "anchors": ["src/eval.rs: eval_function", "src/context.rs: push_context_new, pop_context"]}
{"id": "C36", "title": "Evaluation keeps the context stack balanced", "statement": "Evaluating any program leaves the context stack as it was, on success and on error.", "quantifier": "all programs and shell states", "why_tests_cant": "It must hold from every reachable shell state and for every operation sequence; tests sample a few histories.", "anchors": ["src/builtins.rs: create_context_from_file, export, source, eval_cmd", "src/eval.rs: eval"]}
{"id": "C37", "title": "Namespaces isolate exported contexts", "statement": "An unqualified name is never resolved in an exported context, and ns::name is resolved only in the context exported as ns.", "quantifier": "all context managers and names", "why_tests_cant": "It must hold from every reachable shell state and for every operation sequence; tests sample a few histories.", "anchors": ["src/context.rs: get_var, get_function, is_function, add_context"]}
{"id": "C38", "title": "export context shares the live context", "statement": "After 'export context ns=self', later assignments in that context are visible through ns::name.", "quantifier": "all shell states, names and values", "why_tests_cant": "It must hold from every reachable shell state and for every operation sequence; tests sample a few histories.", "anchors": ["src/builtins.rs: export", "src/context.rs: add_context, get_context"]}
{"id": "C39", "title": "export NAME=value reaches the environment", "statement": "After export NAME=value every command started later receives NAME=value in its environment and NAME is visible in every context that does not shadow it.", "quantifier": "all names, values and shell states", "why_tests_cant": "It must hold from every reachable shell state and for every operation sequence; tests sample a few histories.", "anchors": ["src/builtins.rs: export", "src/context.rs: add_var_pos"]}
{"id": "C40", "title": "export NAME exports an existing variable", "statement": "After NAME=value; export NAME, commands started later receive NAME=value in their environment.", "quantifier": "all names, values and shell states", "why_tests_cant": "It must hold from every reachable shell state and for every operation sequence; tests sample a few histories.", "anchors": ["src/builtins.rs: export (no '=' branch)"]}
{"id": "C41", "title": "unset removes the variable", "statement": "After unset NAME, the innermost binding of NAME is gone (an outer binding becomes visible), other names are unaffected, and commands started later do not receive NAME.", "quantifier": "all shell states and names", "why_tests_cant": "It must hold from every reachable shell state and for every operation sequence; tests sample a few histories.", "anchors": ["src/builtins.rs: unset", "src/context.rs: remove_var"]}
{"id": "C42", "title": "Functions behave as scoped definitions", "statement": "Defining a function makes it callable by that name with exactly that body; redefining replaces the visible definition; removing it uncovers the outer one; other functions are unaffected.", "quantifier": "all shell states, names and bodies", "why_tests_cant": "It must hold from every reachable shell state and for every operation sequence; tests sample a few histories.", "anchors": ["src/context.rs: add_function, get_function, is_function, remove_function", "src/eval.rs: eval_function_definition"]}
{"id": "C43", "title": "Job ids are unique", "statement": "A new job never receives the id of a job still in the table.", "quantifier": "all sequences of job creation, deletion (by id or pid), pid updates and clean-ups", "why_tests_cant": "It must hold from every reachable shell state and for every operation sequence; tests sample a few histories.", "anchors": ["src/jobs.rs: create_job, delete_job, update_next_job_id, clear_completed_jobs"]}
{"id": "C44", "title": "Deleting a job removes exactly that job unless it is stopped", "statement": "delete_job removes the job with that id when it is not stopped, keeps it (marked Stopped) when it is, and never touches another job.", "quantifier": "all job tables", "why_tests_cant": "It must hold from every reachable shell state and for every operation sequence; tests sample a few histories.", "anchors": ["src/jobs.rs: JobUtils<JobId>::delete_job, JobUtils<Pid>::delete_job"]}
{"id": "C45", "title": "A job is found by each of its pids", "statement": "After a job's processes were started, looking up any of their pids gives that job until it is deleted; after deletion none of its pids resolves to a job.", "quantifier": "all job tables and histories", "why_tests_cant": "It must hold from every reachable shell state and for every operation sequence; tests sample a few histories.", "anchors": ["src/jobs.rs: update_pid_table, get_job, delete_job"]}
{"id": "C46", "title": "The current job exists", "statement": "Asking for the current job never crashes.", "quantifier": "all sequences of job operations", "why_tests_cant": "It must hold from every reachable shell state and for every operation sequence; tests sample a few histories.", "anchors": ["src/jobs.rs: get_current_job, delete_job, set_current_job"]}
{"id": "C47", "title": "jobs lists the job table", "statement": "The jobs builtin prints one line per job, in increasing id order.", "quantifier": "all job tables", "why_tests_cant": "It must hold from every reachable shell state and for every operation sequence; tests sample a few histories.", "anchors": ["src/shell.rs: display_jobs, expand_var", "src/jobs.rs: Display for JobControl"]}
{"id": "C48", "title": "Reaping a child never crashes the shell", "statement": "Whatever jobs exist and whichever child terminates or stops first, recording its status does not crash the shell.", "quantifier": "all job tables and all wait results", "why_tests_cant": "It must hold for every order in which children terminate and signals arrive; tests see one schedule per run.", "anchors": ["src/jobs.rs: wait_one"]}
{"id": "C49", "title": "A foreground command is waited for and its exit status recorded", "statement": "Running one external command in the foreground with no other job waits until it exits, sets the exit status to its exit code and leaves the job table as it was.", "quantifier": "all commands, exit codes, shell states without other jobs, any number of interrupted waits", "why_tests_cant": "It must hold for every order in which children terminate and signals arrive; tests see one schedule per run.", "anchors": ["src/eval.rs: eval_pipeline", "src/jobs.rs: wait_for_job, do_wait, wait_one, wait_process"]}
{"id": "C50", "title": "A foreground pipeline is waited for completely", "statement": "A foreground pipeline is finished only when all its processes have terminated.", "quantifier": "all pipelines and all termination orders", "why_tests_cant": "It must hold for every order in which children terminate and signals arrive; tests see one schedule per run.", "anchors": ["src/jobs.rs: do_wait, wait_for_job"]}
{"id": "C51", "title": "A foreground wait is not satisfied by another job", "statement": "While a foreground job runs, the end of some background process does not make the shell return to the prompt.", "quantifier": "all job tables and schedules", "why_tests_cant": "It must hold for every order in which children terminate and signals arrive; tests see one schedule per run.", "anchors": ["src/jobs.rs: do_wait, wait_for_job", "src/eval.rs: eval_pipeline"]}
{"id": "C52", "title": "fg and bg resume the job they name", "statement": "fg/bg with a job id or pid send SIGCONT to every process of that job and to no other process, mark it running in the requested mode, and for an unknown id change no job and report an error.", "quantifier": "all job tables and ids", "why_tests_cant": "It must hold from every reachable shell state and for every operation sequence; tests sample a few histories.", "anchors": ["src/builtins.rs: fgbg, fg, bg"]}
{"id": "C53", "title": "Signals are unblocked after every command", "statement": "After a command line has been evaluated the signal mask is empty again.", "quantifier": "all programs and shell states", "why_tests_cant": "It must hold from every reachable shell state and for every operation sequence; tests sample a few histories.", "anchors": ["src/trap.rs: interrupts_off, interrupts_on", "src/eval.rs: eval_pipeline", "src/builtins.rs: change_directory, fgbg"]}
{"id": "C54", "title": "SIGCHLD can arrive at any time", "statement": "Delivery of SIGCHLD at any point of a job-table update does not crash the shell.", "quantifier": "all interleavings of signal arrival with delete_job", "why_tests_cant": "It must hold for every order in which children terminate and signals arrive; tests see one schedule per run.", "anchors": ["src/shell.rs: delete_job, get_job", "src/trap.rs: on_sig, sig_chld, interrupts_on"]}
{"id": "C55", "title": "A finished background job leaves the table", "statement": "When the single process of a background job terminates, the SIGCHLD handler removes that job and only that job; a stopped one is kept and marked Stopped.", "quantifier": "all job tables and wait results", "why_tests_cant": "It must hold for every order in which children terminate and signals arrive; tests see one schedule per run.", "anchors": ["src/trap.rs: sig_chld", "src/jobs.rs: wait_for_job_sigchld"]}
{"id": "C56", "title": "Signal dispositions", "statement": "Installing handlers catches SIGINT, SIGTSTP and SIGCHLD, ignores SIGQUIT, SIGTERM and SIGTTOU, leaves other signals at their default, never touches a hard-ignored signal, and repeating it changes nothing.", "quantifier": "all signals and all recorded modes", "why_tests_cant": "It must hold from every reachable shell state and for every operation sequence; tests sample a few histories.", "anchors": ["src/trap.rs: set_signal"]}
{"id": "C57", "title": "&& and || short-circuit", "statement": "a && b runs b exactly when a's status is 0, a || b exactly when it is not; the status of the chain is that of the last pipeline run; a failing evaluation stops the chain.", "quantifier": "all and-or trees, all pipelines, all states", "why_tests_cant": "It must hold from every reachable shell state and for every operation sequence; tests sample a few histories.", "anchors": ["src/eval.rs: eval_and_or"]}
{"id": "C58", "title": "Lists run in order", "statement": "The commands of a list run left to right, each from the state left by the one before; the status is that of the last one.", "quantifier": "all lists and states", "why_tests_cant": "It must hold from every reachable shell state and for every operation sequence; tests sample a few histories.", "anchors": ["src/eval.rs: parse_tree, eval"]}
{"id": "C59", "title": "A failing builtin only fails its own command", "statement": "When a builtin reports an error, the commands after it in the list still run and || sees a failure.", "quantifier": "all lists containing a failing builtin", "why_tests_cant": "It must hold from every reachable shell state and for every operation sequence; tests sample a few histories.", "anchors": ["src/eval.rs: eval_builtin, parse_tree, eval_and_or"]}
{"id": "C60", "title": "! negates the status", "statement": "'! cmd' has status 0 exactly when cmd fails.", "quantifier": "all pipelines and states", "why_tests_cant": "It must hold from every reachable shell state and for every operation sequence; tests sample a few histories.", "anchors": ["src/grammar.lalrpop: Pipeline", "src/eval.rs: eval_pipeline"]}
{"id": "C61", "title": "Pipelines are plumbed correctly", "statement": "In a pipeline of n commands the stdout of command i is the write end and the stdin of command i+1 the read end of the same pipe, the first stdin and last stdout are the shell's own, and no other pipe end is left open in any command.", "quantifier": "all pipeline lengths and descriptor tables in which 0, 1, 2 are open", "why_tests_cant": "The set of inputs is infinite; a test only samples it.", "anchors": ["src/eval.rs: eval_pipeline (fork loop)"]}
{"id": "C62", "title": "Pipelines leak no descriptor", "statement": "After starting a pipeline of any length the shell has exactly the descriptors it had before, and none of its close or dup2 calls can fail.", "quantifier": "all pipeline lengths and descriptor tables in which 0, 1, 2 are open", "why_tests_cant": "The set of inputs is infinite; a test only samples it.", "anchors": ["src/eval.rs: eval_pipeline (fork loop)"]}
{"id": "C63", "title": "Every command of a pipeline runs", "statement": "Each command of a pipeline is executed.", "quantifier": "all pipelines", "why_tests_cant": "The set of inputs is infinite; a test only samples it.", "anchors": ["src/eval.rs: eval_pipeline, eval_command"]}
{"id": "C64", "title": "The status of a pipeline is that of its last command", "statement": "A foreground pipeline has the exit status of its last command.", "quantifier": "all pipelines and exit codes", "why_tests_cant": "It must hold for every order in which children terminate and signals arrive; tests see one schedule per run.", "anchors": ["src/jobs.rs: wait_one", "src/eval.rs: eval_pipeline"]}
{"id": "C65", "title": "A background command does not block", "statement": "cmd & starts the processes and returns without waiting for any child; the job is in the table and flagged as a background job.", "quantifier": "all pipelines and states", "why_tests_cant": "It must hold for every order in which children terminate and signals arrive; tests see one schedule per run.", "anchors": ["src/eval.rs: eval_pipeline", "src/jobs.rs: create_job"]}
{"id": "C66", "title": "A negated background pipeline runs in the background", "statement": "'! cmd &' runs in the background like 'cmd &'.", "quantifier": "all pipelines", "why_tests_cant": "The set of inputs is infinite; a test only samples it.", "anchors": ["src/grammar.lalrpop: Pipeline"]}
{"id": "C67", "title": "A function's status is that of its last command", "statement": "The status of a function call is the status of the last command of its body, or the argument of return.", "quantifier": "all functions and states", "why_tests_cant": "It must hold from every reachable shell state and for every operation sequence; tests sample a few histories.", "anchors": ["src/eval.rs: eval_pipeline, eval_function", "src/builtins.rs: return_cmd"]}
{"id": "C68", "title": "return ends the function", "statement": "No command after an executed return runs in that function call.", "quantifier": "all function bodies", "why_tests_cant": "It must hold from every reachable shell state and for every operation sequence; tests sample a few histories.", "anchors": ["src/builtins.rs: return_cmd"]}
{"id": "C69", "title": "Redirections are applied in order to the requested descriptor", "statement": "n< f, n> f and n>> f open f for input, output and append and install it on descriptor n (default 0 or 1); later redirections of the same descriptor win.", "quantifier": "all redirection lists", "why_tests_cant": "The set of inputs is infinite; a test only samples it.", "anchors": ["src/eval.rs: eval_redirect, eval_prefix_suffix"]}
{"id": "C70", "title": "A redirection is never lost", "statement": "Every redirection written in a command takes effect when the command starts.", "quantifier": "all simple commands", "why_tests_cant": "The set of inputs is infinite; a test only samples it.", "anchors": ["src/ast.rs: SimpleCommand::eval", "src/eval.rs: eval_prefix_suffix"]}
{"id": "C71", "title": "'>' truncates the file", "statement": "After cmd > f, f contains exactly what cmd wrote.", "quantifier": "all file contents and outputs", "why_tests_cant": "The set of inputs is infinite; a test only samples it.", "anchors": ["src/eval.rs: eval_redirect (Output)"]}
{"id": "C72", "title": "'>>' appends", "statement": "After cmd >> f, f contains its previous content followed by what cmd wrote.", "quantifier": "all file contents and outputs", "why_tests_cant": "The set of inputs is infinite; a test only samples it.", "anchors": ["src/eval.rs: eval_redirect (Append)"]}
{"id": "C73", "title": "PATH search finds the first match", "statement": "A command name is resolved to the first PATH directory, in order, that contains a regular file of that name; it is not found exactly when none does.", "quantifier": "all PATH values, names and file systems", "why_tests_cant": "The set of inputs is infinite; a test only samples it.", "anchors": ["src/context.rs: lookup_command"]}
{"id": "C74", "title": "A command given as a path is run directly", "statement": "A command name containing '/' names the file to execute; PATH is not used.", "quantifier": "all path names and file systems", "why_tests_cant": "The set of inputs is infinite; a test only samples it.", "anchors": ["src/context.rs: lookup_command", "src/eval.rs: temp_exec"]}
{"id": "C75", "title": "exit ends the shell with the requested status", "statement": "exit n ends the shell with status n and exit without argument with the status of the last command; nothing after it runs; the history is saved, or it is said that it could not be.", "quantifier": "all codes, programs and states", "why_tests_cant": "It must hold from every reachable shell state and for every operation sequence; tests sample a few histories.", "anchors": ["src/builtins.rs: quit"]}
{"id": "C76", "title": "A prefix assignment is local to the command", "statement": "A=1 cmd gives cmd A=1 in its environment and leaves the shell's variables and environment unchanged.", "quantifier": "all assignments, commands and states", "why_tests_cant": "It must hold from every reachable shell state and for every operation sequence; tests sample a few histories.", "anchors": ["src/eval.rs: eval_assignment, eval_prefix_suffix"]}
{"id": "C77", "title": "Every assignment of a line is performed", "statement": "A=1 B=2 assigns both variables.", "quantifier": "all assignment lists", "why_tests_cant": "The set of inputs is infinite; a test only samples it.", "anchors": ["src/builtins.rs: assignment"]}
{"id": "C78", "title": "Builtins never crash on missing or odd arguments", "statement": "Every builtin called with any argument list either succeeds or reports an error; the shell does not crash.", "quantifier": "all builtins and all argument lists", "why_tests_cant": "The set of inputs is infinite; a test only samples it.", "anchors": ["src/builtins.rs: change_directory, fgbg, alias, unalias, eval_cmd, exec_cmd, unset, readonly, quit, return_cmd"]}
{"id": "C79", "title": "eval evaluates all its arguments", "statement": "eval w1 ... wn evaluates the text 'w1 ... wn' in the current shell.", "quantifier": "all argument lists", "why_tests_cant": "The set of inputs is infinite; a test only samples it.", "anchors": ["src/builtins.rs: eval_cmd"]}
{"id": "C80", "title": "source runs a file in the current shell", "statement": "source FILE evaluates the file's text in the current shell: same effect as evaluating it as a line; a missing file is reported as an error and runs nothing.", "quantifier": "all files, arguments and states", "why_tests_cant": "It must hold from every reachable shell state and for every operation sequence; tests sample a few histories.", "anchors": ["src/builtins.rs: source"]}
{"id": "C81", "title": "exec replaces the shell with the named command", "statement": "exec [-cl] [-a name] cmd args replaces the shell by cmd with argv [name or cmd, args], '-' prefixed with -l, and an empty environment with -c.", "quantifier": "all argument lists", "why_tests_cant": "The set of inputs is infinite; a test only samples it.", "anchors": ["src/builtins.rs: exec_cmd"]}
{"id": "C82", "title": "A script ends", "statement": "Running a script file whose lines all parse ends after its last line.", "quantifier": "all script files", "why_tests_cant": "The set of inputs is infinite; a test only samples it.", "anchors": ["src/main.rs: script_loop"]}
{"id": "C83", "title": "-c and script arguments", "statement": "With -c, the words after the option joined by blanks are the program; otherwise the first non-option argument is the script, and all following arguments, options included, are its positional parameters in order.", "quantifier": "all command lines of the shell", "why_tests_cant": "The set of inputs is infinite; a test only samples it.", "anchors": ["src/main.rs: parse_args, parse_dash_arg", "src/shell.rs: set_input_args, set_script_name"]}
{"id": "C84", "title": "Completion lists exactly the matching commands", "statement": "Command completion returns, sorted and without duplicates, exactly the names in PATH directories that start with the typed line.", "quantifier": "all PATH values, directory contents and lines", "why_tests_cant": "The set of inputs is infinite; a test only samples it.", "anchors": ["src/completion.rs: command_complete, complete_cmd"]}
{"id": "C85", "title": "Child processes cannot change the shell", "statement": "Starting a process or a command substitution changes no variable, alias, function, environment or directory of the shell.", "quantifier": "all external commands and states", "why_tests_cant": "It must hold from every reachable shell state and for every operation sequence; tests sample a few histories.", "anchors": ["src/eval.rs: eval_pipeline, temp_fork", "src/ast.rs: eval_subshell"]}
{"id": "C86", "title": "An interactive session survives every line", "statement": "Reading a line and evaluating it returns to the prompt unless the line runs exit or exec; end of input ends the session and saves the history.", "quantifier": "all sequences of lines", "why_tests_cant": "It must hold from every reachable shell state and for every operation sequence; tests sample a few histories.", "anchors": ["src/main.rs: interactive_loop"]}
{"id": "C87", "title": "SIGCHLD while the shell accesses its data", "statement": "A child that ends while the shell reads or changes a variable, an alias or any other part of its data does not crash the shell.", "quantifier": "all programs of accesses, all interleavings of signal arrival", "why_tests_cant": "It must hold for every order in which children terminate and signals arrive; tests see one schedule per run.", "anchors": ["src/shell.rs: SHELL, add_alias, lookup_alias and the other wrappers", "src/trap.rs: on_sig, sig_chld"]}
{"id": "C88", "title": "Keyboard and termination signals at the prompt", "statement": "At the prompt SIGINT starts a new line and changes nothing else, and SIGTSTP, SIGQUIT, SIGTERM and SIGTTOU have no effect; the session goes on after them.", "quantifier": "all prompts of all sessions, all signals", "why_tests_cant": "It must hold from every reachable shell state and for every operation sequence; tests sample a few histories.", "anchors": ["src/trap.rs: on_sig, set_signal", "src/main.rs: main, interactive_loop"]}
{"id": "C89", "title": "The shell keeps its signal handlers", "statement": "From the first prompt to the end of the session the handlers installed at the start stay installed, and no other disposition changes.", "quantifier": "all sessions", "why_tests_cant": "It must hold from every reachable shell state and for every operation sequence; tests sample a few histories.", "anchors": ["src/trap.rs: set_signal, remove_handlers", "src/builtins.rs: exec_cmd"]}
{"id": "C90", "title": "Programs start with a clean signal state", "statement": "Every program of a pipeline is started in the shell's working directory and with its environment, with no signal blocked and every signal at its default.", "quantifier": "all pipelines of external commands, all prompts", "why_tests_cant": "It must hold from every reachable shell state and for every operation sequence; tests sample a few histories.", "anchors": ["src/eval.rs: eval_pipeline, temp_fork, temp_exec", "src/trap.rs: remove_handlers, interrupts_on"]}
{"id": "C91", "title": "Process groups of jobs", "statement": "The processes of a background pipeline are in one process group of their own, those of a foreground pipeline in the shell's.", "quantifier": "all pipelines of external commands, all prompts", "why_tests_cant": "It must hold from every reachable shell state and for every operation sequence; tests sample a few histories.", "anchors": ["src/eval.rs: eval_pipeline (fork loop)"]}
{"id": "C92", "title": "cd and pwd", "statement": "cd DIR makes DIR the working directory of the shell and sets PWD; a failing cd changes nothing and is reported; pwd prints the working directory.", "quantifier": "all directories, file systems and prompts", "why_tests_cant": "It must hold from every reachable shell state and for every operation sequence; tests sample a few histories.", "anchors": ["src/builtins.rs: change_directory, pwd"]}
{"id": "C93", "title": "A command with a failing redirection is not run", "statement": "If a file of a redirection cannot be opened, the command is not run; the redirections before it have been opened, in order, and the failure is reported on standard error.", "quantifier": "all prompts, all external commands with redirections, all sets of files that cannot be opened", "why_tests_cant": "It must hold from every reachable shell state and for every operation sequence; tests sample a few histories.", "anchors": ["src/eval.rs: eval_prefix_suffix, temp_exec", "src/redirect.rs"]}
{"id": "C94", "title": "Redirections of builtins", "statement": "The redirections of a builtin apply to the builtin, and only to it: its output goes to the file, and afterwards the descriptors and variables of the shell are as they would be without them.", "quantifier": "all states, all builtins with redirections and assignments around them", "why_tests_cant": "It must hold from every reachable shell state and for every operation sequence; tests sample a few histories.", "anchors": ["src/eval.rs: eval_builtin, eval_simple_command", "src/builtins.rs"]}
{"id": "C95", "title": "Status of a command killed by a signal", "statement": "When the program of a foreground command is killed by a signal, the shell goes back to the prompt, forgets the job, and the status is not zero.", "quantifier": "all prompts, all external commands, all signals", "why_tests_cant": "It must hold for every order in which children terminate and signals arrive; tests see one schedule per run.", "anchors": ["src/eval.rs: eval_pipeline", "src/jobs.rs: wait_for_job, do_wait, update_job"]}
{"id": "C96", "title": "Stopped commands become jobs", "statement": "When the program of a foreground command is stopped by a signal, the shell goes back to the prompt and keeps the job as a stopped one, the current one.", "quantifier": "all prompts, all external commands, all signals", "why_tests_cant": "It must hold for every order in which children terminate and signals arrive; tests see one schedule per run.", "anchors": ["src/eval.rs: eval_pipeline", "src/jobs.rs: wait_for_job, do_wait, update_job, delete_job"]}
{"id": "C97", "title": "Aliases and builtins", "statement": "An alias may stand for a builtin, and may have the name of a builtin: the command it stands for is run.", "quantifier": "all states, aliases and arguments", "why_tests_cant": "It must hold from every reachable shell state and for every operation sequence; tests sample a few histories.", "anchors": ["src/eval.rs: eval_simple_command, eval_builtin", "src/ast.rs: alias_lookup"]}
{"id": "C98", "title": "Exit status of rsh -c", "statement": "A shell started with -c TEXT ends with the status of TEXT.", "quantifier": "all texts, options and file systems", "why_tests_cant": "The set of inputs is infinite; a test only samples it.", "anchors": ["src/main.rs: main, read_from_args"]}
{"id": "C99", "title": "Blanks around operators and comments do not matter", "statement": "A command line has the same effect with any blanks before its words and operators, with none around an operator, and with blanks, a comment and a newline at its end; at the prompt, in a script and with -c.", "quantifier": "all command lines, all layouts, all states", "why_tests_cant": "The set of inputs is infinite; a test only samples it.", "anchors": ["src/lexer.rs: next, is_word_continue, word"]}
{"id": "C100", "title": "Empty lines and comments do nothing", "statement": "A line of blanks, or with only a comment, changes nothing and ends regularly.", "quantifier": "all such lines, all states", "why_tests_cant": "The set of inputs is infinite; a test only samples it.", "anchors": ["src/lexer.rs: next", "src/grammar.lalrpop: CompleteCommand", "src/main.rs: interactive_loop, script_loop"]}
{"id": "C101", "title": "Enough room is enough", "statement": "What a line, a script, a start-up file or a whole run of the shell does does not depend on how much room there is for nested evaluation (functions, eval, source, command substitution), as long as it is not used up.", "quantifier": "all runs, all depths", "why_tests_cant": "The set of inputs is infinite; a test only samples it.", "anchors": ["src/eval.rs: eval, parse_tree, eval_function", "src/ast.rs: eval_subshell", "src/builtins.rs: eval_cmd, source"]}
{"id": "C102", "title": "Endless recursion is not bounded", "statement": "Calling a function that begins by calling itself, directly or through others, uses up every call stack: the shell neither stops it nor returns to the prompt.", "quantifier": "all rings of functions, all states, all depths", "why_tests_cant": "The set of inputs is infinite; a test only samples it.", "anchors": ["src/eval.rs: eval_function, eval_compound_command"]}
{"id": "C103", "title": "The inherited environment", "statement": "When the shell starts, its variables are those of its environment, with the same values and all assignable, and for names that are not there PATH, PWD, PS1, PS2, PS4, PPID and PID have default values; every program the shell starts has every name of that environment, unless it is started by exec -c.", "quantifier": "all environments, all runs of the shell", "why_tests_cant": "It must hold from every reachable shell state and for every operation sequence; tests sample a few histories.", "anchors": ["src/context.rs: ContextManager::new", "src/eval.rs: temp_execve", "src/builtins.rs: exec_cmd"]}
{"id": "C104", "title": "Programs get well-formed arguments and environment", "statement": "Every program the shell starts, at the prompt, from scripts, start-up files, functions and command substitutions, gets at least one argument, no argument, path or environment entry contains a NUL byte, and no name in its environment is empty or contains '='.", "quantifier": "all runs of the shell", "why_tests_cant": "The set of inputs is infinite; a test only samples it.", "anchors": ["src/ast.rs: argv", "src/eval.rs: eval_assignment, temp_execve", "src/builtins.rs: exec_cmd"]}
{"id": "C105", "title": "Status of fg", "statement": "After fg JOB the exit status is that of the job it continued and waited for.", "quantifier": "all prompts, jobs and sequences of reports", "why_tests_cant": "It must hold for every order in which children terminate and signals arrive; tests see one schedule per run.", "anchors": ["src/builtins.rs: fg, fgbg", "src/jobs.rs: wait_for_job"]}
{"id": "C106", "title": "Which jobs are background jobs", "statement": "Asked about a number, the job table answers that it is a background job exactly when the job with that number runs in the background.", "quantifier": "all sequences of operations on the job table", "why_tests_cant": "It must hold from every reachable shell state and for every operation sequence; tests sample a few histories.", "anchors": ["src/jobs.rs: is_background_job, create_job, delete_job, set_background, set_foreground"]}
{"id": "C107", "title": "Whether there are background jobs", "statement": "Asked whether there are background jobs, the job table answers yes exactly when there is one.", "quantifier": "all job tables", "why_tests_cant": "It must hold from every reachable shell state and for every operation sequence; tests sample a few histories.", "anchors": ["src/jobs.rs: background_jobs"]}
{"id": "C108", "title": "Jobs killed or stopped are announced", "statement": "When a foreground command is killed or stopped by a signal, one line on standard output tells the number of the job, its state, its name and the signal; when it exits nothing is written; reports about other jobs are not announced.", "quantifier": "all prompts, external commands, signals, other jobs and reports", "why_tests_cant": "It must hold for every order in which children terminate and signals arrive; tests see one schedule per run.", "anchors": ["src/jobs.rs: do_wait, format_status, Display for Job"]}
{"id": "C109", "title": "Background jobs are announced", "statement": "When a background pipeline is started, one line on standard output tells the number of the job, the pid of its first process and the names of its commands.", "quantifier": "all prompts, all pipelines of external commands", "why_tests_cant": "It must hold from every reachable shell state and for every operation sequence; tests sample a few histories.", "anchors": ["src/eval.rs: eval_pipeline", "src/jobs.rs: Display for Job"]}
{"id": "C110", "title": "The variable store keeps what it is given", "statement": "After any sequence of public operations on a new variable store (add a variable at a position, as a pair or as NAME=VALUE, push a level, pop a level) every name has the value those operations give it, starting from the environment and the default variables; the store crashes exactly when a name is empty, a number is too large or a position does not exist.", "quantifier": "all environments and all sequences of operations", "why_tests_cant": "It must hold from every reachable shell state and for every operation sequence; tests sample a few histories.", "anchors": ["src/var.rs: VarData::new, add_var, push_var_stack, pop_var_stack, lookup_var, get_current_context_pos"]}
{"id": "C111", "title": "Local variables hide outer ones", "statement": "In the variable store a variable set at the innermost level is the one that is looked up.", "quantifier": "all stores and names", "why_tests_cant": "It must hold from every reachable shell state and for every operation sequence; tests sample a few histories.", "anchors": ["src/var.rs: lookup_internal, add_var"]}
{"id": "C112", "title": "Popping a level restores the variables", "statement": "After a level is pushed, anything is set in it or in levels nested in it, and it is popped, every variable has the value it had before.", "quantifier": "all stores, all nested sequences of operations", "why_tests_cant": "It must hold from every reachable shell state and for every operation sequence; tests sample a few histories.", "anchors": ["src/var.rs: push_var_stack, pop_var_stack, check_levels"]}
{"id": "C113", "title": "The variable store finds commands along PATH", "statement": "lookup_command returns the regular file of the first directory in PATH that has one, nothing if none has, and never crashes.", "quantifier": "all stores, paths, file systems and commands", "why_tests_cant": "It must hold from every reachable shell state and for every operation sequence; tests sample a few histories.", "anchors": ["src/var.rs: lookup_command, path"]}
{"id": "C114", "title": "Positional parameters in the variable store", "statement": "A parameter set by its number, however the number is written, is found under that number.", "quantifier": "all stores, numbers and values", "why_tests_cant": "The set of inputs is infinite; a test only samples it.", "anchors": ["src/var.rs: add_var (key)"]}
{"id": "C115", "title": "Exporting the important variables", "statement": "Exporting gives each important variable its value in the environment and keeps the others; PATH is the text that was set; only HISTFILE can be set. By default the home directory is that of the environment, or /root, and the directory the current one.", "quantifier": "all values and environments", "why_tests_cant": "The set of inputs is infinite; a test only samples it.", "anchors": ["src/var.rs: ImportantVars"]}
{"id": "C116", "title": "Command substitution outside quotes", "statement": "An argument $(CMD) or `CMD` that is not in quotes runs CMD and is replaced by the words of its output.", "quantifier": "all prompts, all external commands, all substitutions among their arguments", "why_tests_cant": "It must hold from every reachable shell state and for every operation sequence; tests sample a few histories.", "anchors": ["src/ast.rs: expand_vars", "src/eval.rs: eval_prefix_suffix"]}
{"id": "C117", "title": "Prompts and the end of a session", "statement": "Before each input the shell shows the value PS1 has at that moment on its standard output; an interrupt only leads to the next prompt; at the end of the input, and after an error of the line editor, which is reported, it writes its history to history.txt, or says that it cannot, and ends.", "quantifier": "all prompts with PS1 set, all inputs", "why_tests_cant": "It must hold from every reachable shell state and for every operation sequence; tests sample a few histories.", "anchors": ["src/main.rs: interactive_loop", "src/shell.rs: save_history"]}
{"id": "C118", "title": "Read-only functions", "statement": "A function of a context that is made read-only keeps its body: until it is removed it is found with that body, and defining it again is refused with a message.", "quantifier": "all sequences of operations on the functions of a context", "why_tests_cant": "It must hold from every reachable shell state and for every operation sequence; tests sample a few histories.", "anchors": ["src/context.rs: add_function, remove_function, make_readonly_func, get_function"]}
{"id": "C119", "title": "A forked copy of the shell never goes on as a shell", "statement": "No process the shell forks, for a member of a pipeline or for a command substitution, and at any depth of nesting, returns to the code that reads commands: each becomes a program, exits, crashes, or never ends.", "quantifier": "all runs of the shell (interactive, script, -c), all behaviours of the system", "why_tests_cant": "It must hold from every reachable shell state and for every operation sequence; tests sample a few histories.", "anchors": ["src/eval.rs: eval_pipeline, temp_fork, temp_exec", "src/ast.rs: eval_subshell"]}
{"id": "C120", "title": "Files as namespaces", "statement": "export context NS=FILE evaluates FILE in a context of its own: afterwards NS::NAME is the value FILE gave to NAME, and no variable of the shell and of other namespaces has changed; export context NAME does so for the file NAME, and export context self names the current context by its $0.", "quantifier": "all prompts, namespaces, files and layouts", "why_tests_cant": "It must hold from every reachable shell state and for every operation sequence; tests sample a few histories.", "anchors": ["src/builtins.rs: export, create_context_from_file", "src/context.rs: add_context, get_var, add_var"]}
{"id": "C121", "title": "Signals go only to processes the shell has started", "statement": "In every run of the shell, a signal it or a forked copy of it sends (fg and bg send SIGCONT) goes to a process that it, or the shell it is a copy of, has started before.", "quantifier": "all runs of the shell (interactive, script, -c), all behaviours of the system", "why_tests_cant": "It must hold from every reachable shell state and for every operation sequence; tests sample a few histories.", "anchors": ["src/builtins.rs: fg, bg", "src/eval.rs: eval_pipeline (fork loop)", "src/jobs.rs: Process::new, create_job, get_job"]}
{"id": "C122", "title": "Programs can be written out and read again", "statement": "Every accepted text in which no quotation is left open is read as a program that can be written out, on one line in a canonical form, and read again as the same program: the canonical text has the same effect, and no two programs have the same text.  Words are exactly the texts without blanks and operators, quotations and substitutions.", "quantifier": "all texts, all trees of programs (pipelines, lists, groups and functions nested to any depth)", "why_tests_cant": "The set of inputs is infinite; a test only samples it.", "anchors": ["src/lexer.rs: Lexer::next", "src/grammar.lalrpop: all rules"]}
{"id": "C123", "title": "Defining and calling functions", "statement": "Defining a function, whatever its body, does nothing but give the name its body; calling it does what its body does as a program of its own, in a new context in which $0, $1, ... are the words of the call; afterwards the context is dropped.", "quantifier": "all programs as bodies (nested to any depth), all names, all calls, all states", "why_tests_cant": "The set of inputs is infinite; a test only samples it.", "anchors": ["src/eval.rs: eval_function, eval_function_body, eval_compound_command", "src/context.rs: add_function, push_context, pop_context"]}
{"id": "C124", "title": "Brace groups run their commands", "statement": "A group { LIST; } among the commands of a pipeline runs LIST.", "quantifier": "all programs, all states", "why_tests_cant": "The set of inputs is infinite; a test only samples it.", "anchors": ["src/eval.rs: eval_command"]}
{"id": "C125", "title": "Misused builtins are reported", "statement": "A builtin that is called without an argument it needs, with an option it does not have, with too many arguments or with a job that does not exist prints a message that says so on its standard output, and nothing else changes.", "quantifier": "all states, all such calls of unset, readonly, unalias, exec, source, export context, fg and bg", "why_tests_cant": "It must hold from every reachable shell state and for every operation sequence; tests sample a few histories.", "anchors": ["src/builtins.rs: unset, readonly, unalias, exec_cmd, source, export, fgbg", "src/eval.rs: eval"]}
{"id": "C126", "title": "Signal handlers act as wholes", "statement": "Wherever SIGCHLD arrives while the shell works on its data: if the shell is not crashed by it and comes to the end of what it does, its job table is as if every access and every run of the handler had happened as a whole, one after the other; a handler that is not itself interrupted gives control back where it was, with signals let in.", "quantifier": "all job tables, all sequences of accesses, all arrivals of signals and reports", "why_tests_cant": "It must hold for every order in which children terminate and signals arrive; tests see one schedule per run.", "anchors": ["src/trap.rs: sig_chld", "src/jobs.rs: wait_for_job_sigchld", "src/shell.rs: delete_job"]}
{"id": "C127", "title": "Reading the arguments prints nothing", "statement": "When the shell is started with arguments it writes nothing to its standard output of its own accord: what is written there comes from the commands it is given.", "quantifier": "all argument lists, all states", "why_tests_cant": "The set of inputs is infinite; a test only samples it.", "anchors": ["src/main.rs: parse_args"]}
{"id": "C128", "title": "Only cd changes the working directory", "statement": "In every run of the shell its working directory is the one it was started in, changed only by the changes of directory it has itself made (by cd, in a line, a script, a start-up file or a function), each of which succeeded; nothing a child process, a member of a pipeline or a command substitution does changes it.", "quantifier": "all runs of the shell (interactive, script, -c), however they end, all behaviours of the system", "why_tests_cant": "It must hold from every reachable shell state and for every operation sequence; tests sample a few histories.", "anchors": ["src/builtins.rs: change_directory", "src/eval.rs: eval_pipeline", "src/ast.rs: eval_subshell"]}
{"id": "C129", "title": "Redirections do not touch the shell itself", "statement": "In no run does the shell process itself open a file for a redirection, and when a run ends normally its descriptors are those it began with.", "quantifier": "all runs of the shell (interactive, script, -c), all behaviours of the system", "why_tests_cant": "It must hold from every reachable shell state and for every operation sequence; tests sample a few histories.", "anchors": ["src/eval.rs: eval_redirect, eval_prefix_suffix, eval_pipeline", "src/ast.rs: eval_subshell"]}
{"id": "C130", "title": "Start-up files", "statement": "When the shell starts it reads .rshrc and then .profile in the home directory of the user, evaluates each in the shell itself, and whatever they contain the shell then starts.", "quantifier": "all runs of the shell (interactive, script, -c), all files, all states", "why_tests_cant": "It must hold from every reachable shell state and for every operation sequence; tests sample a few histories.", "anchors": ["src/main.rs: main, read_rc, read_user_profile"]}
{"id": "C131", "title": "Listings", "statement": "alias (or alias -p) writes one line for each alias and export one for each variable of the environment, and they change nothing; the lines for the aliases, typed in another session, define the same aliases.", "quantifier": "all states, all aliases and environments", "why_tests_cant": "It must hold from every reachable shell state and for every operation sequence; tests sample a few histories.", "anchors": ["src/builtins.rs: alias, export", "src/shell.rs: display_aliases, add_alias"]}
{"id": "C132", "title": "Splitting a command at its blanks", "statement": "remove_whitespace splits the name and the arguments of a command at blanks, in order, the first word becoming the name; what is in quotes stays together; it never crashes.", "quantifier": "all commands", "why_tests_cant": "The set of inputs is infinite; a test only samples it.", "anchors": ["src/ast.rs: remove_whitespace, recombine_double_quotes"]}
{"id": "C133", "title": "Removing quotes from a command", "statement": "remove_single_quotes and remove_double_quotes remove the quotes of their kind from the name and every argument that is in them and leave the other words as they are.", "quantifier": "all commands", "why_tests_cant": "The set of inputs is infinite; a test only samples it.", "anchors": ["src/ast.rs: remove_single_quotes, remove_double_quotes, cut_quotes"]}
{"id": "C134", "title": "Expanding the substitutions of a command", "statement": "expand_subshells replaces each command substitution among the assignments, the name and the arguments by its output, as one word, and leaves everything else of the command as it is.", "quantifier": "all commands, all states and behaviours of the system", "why_tests_cant": "The set of inputs is infinite; a test only samples it.", "anchors": ["src/ast.rs: expand_subshells, eval_subshell"]}
{"id": "C135", "title": "Reading up to the second delimiter", "statement": "take_until_seen_twice reads up to the second of two delimiters.", "quantifier": "all texts, positions and delimiters", "why_tests_cant": "The set of inputs is infinite; a test only samples it.", "anchors": ["src/lexer.rs: take_until_seen_twice"]}
{"id": "C136", "title": "A refused pipe", "statement": "If the system refuses a pipe while a pipeline is started, the shell reports it, comes back to the prompt, and the line has no other effect: no job, descriptor or blocked signal is left.", "quantifier": "all prompts, all pipelines of external commands, all points at which a pipe is refused", "why_tests_cant": "It must hold from every reachable shell state and for every operation sequence; tests sample a few histories.", "anchors": ["src/eval.rs: eval_pipeline (fork loop)"]}
{"id": "C137", "title": "A refused process", "statement": "If the system refuses to create the process for a command, the user is told and the command counts as failed.", "quantifier": "all prompts, all pipelines of external commands and command substitutions", "why_tests_cant": "It must hold from every reachable shell state and for every operation sequence; tests sample a few histories.", "anchors": ["src/eval.rs: eval_pipeline", "src/ast.rs: eval_subshell"]}
{"id": "C138", "title": "The history file", "statement": "The shell process writes its history once, at the end of the session, whichever way the session ends, and always to the same file; nothing follows the writing.", "quantifier": "all runs of the shell, all sessions and behaviours of the system", "why_tests_cant": "It must hold from every reachable shell state and for every operation sequence; tests sample a few histories.", "anchors": ["src/main.rs: main, interactive_loop", "src/builtins.rs: exit", "src/shell.rs: save_history, set_history_location"]}
{"id": "C139", "title": "A variable that is not set", "statement": "An argument $NAME, when no variable NAME is set, stands for nothing.", "quantifier": "all prompts, all external commands, all names without a value", "why_tests_cant": "The set of inputs is infinite; a test only samples it.", "anchors": ["src/ast.rs: expand_vars"]}
{"id": "C140", "title": "The status of the last command", "statement": "An argument $? stands for the exit status of the last command.", "quantifier": "all prompts, all external commands", "why_tests_cant": "It must hold from every reachable shell state and for every operation sequence; tests sample a few histories.", "anchors": ["src/ast.rs: expand_vars", "src/shell.rs: set_exit_status"]}
{"id": "C141", "title": "Parts written together form one word", "statement": "Texts, quoted texts and variables that are written without blanks between them reach the command as one argument, without the quotes.", "quantifier": "all prompts, all external commands, all words", "why_tests_cant": "The set of inputs is infinite; a test only samples it.", "anchors": ["src/lexer.rs: next, is_word_continue", "src/ast.rs: expand_vars, eval"]}
{"id": "C142", "title": "Interrupting a command substitution", "statement": "An interrupt or stop signal from the keyboard that arrives while the shell waits for a command substitution brings the user back to the prompt; other signals that can be blocked are held back until the line is done.", "quantifier": "all lines with a command substitution in double quotes, all texts in it and all their outcomes, all signals, all reachable sessions", "why_tests_cant": "It must hold for every order in which children terminate and signals arrive; tests see one schedule per run.", "anchors": ["src/ast.rs: eval_subshell", "src/trap.rs: interrupts_off, set_signal, on_sig"]}
{"id": "C143", "title": "The interrupt key does not let other signals in", "statement": "While the shell holds signals back, pressing the interrupt key does not make it handle the end of a child.", "quantifier": "all programs of accesses to the shell's data, all interleavings of SIGINT and SIGCHLD", "why_tests_cant": "It must hold for every order in which children terminate and signals arrive; tests see one schedule per run.", "anchors": ["src/trap.rs: on_sig, on_sigint, sigclearmask, interrupts_off", "src/shell.rs: delete_job"]}
{"id": "C144", "title": "Only export changes the environment", "statement": "Lines and start-up files in which no command (also in functions) is named export, eval, source, . or alias leave the environment of the shell as it is, also if words of theirs expand to such names.", "quantifier": "all such lines and sessions, all shells whose functions and aliases come from such lines, all behaviours of the system, however the session ends", "why_tests_cant": "The set of inputs is infinite; a test only samples it.", "anchors": ["src/eval.rs: eval_simple_command, is_builtin, call_builtin, eval_assignment", "src/builtins.rs: export", "src/main.rs: main"]}
{"id": "C145", "title": "The shell reads files only on request", "statement": "In a session without commands named export, eval, source, . or alias the shell process itself reads no file but the two start-up files and opens none.", "quantifier": "all such lines and sessions, all behaviours of the system, however the session ends", "why_tests_cant": "The set of inputs is infinite; a test only samples it.", "anchors": ["src/eval.rs: eval_simple_command, eval_redirect", "src/builtins.rs: source, create_context_from_file", "src/main.rs: main, read_rc, read_user_profile"]}
{"id": "C146", "title": "Only fg and bg send signals", "statement": "In a session that moreover has no commands named fg or bg the shell process sends no signal to any process.", "quantifier": "all such lines and sessions, all signals it gets, all behaviours of the system, however the session ends", "why_tests_cant": "It must hold for every order in which children terminate and signals arrive; tests see one schedule per run.", "anchors": ["src/builtins.rs: fgbg", "src/eval.rs: eval_simple_command, call_builtin", "src/trap.rs: on_sig, sig_chld"]}
{"id": "C147", "title": "Only exit and exec end the shell", "statement": "A session without commands named exit, exec, export, eval, source, . or alias, in which no signal arrives, goes on until the input ends (or the shell crashes): it does not end itself, does not become another program and does not write the history before.", "quantifier": "all such lines and sessions, all behaviours of the system", "why_tests_cant": "The set of inputs is infinite; a test only samples it.", "anchors": ["src/builtins.rs: exit, exec_cmd", "src/eval.rs: eval_pipeline, eval_function, call_builtin", "src/main.rs: interactive_loop"]}
{"id": "C148", "title": "Directory and aliases change only by name", "statement": "A session that moreover has no command named cd keeps its working directory; lines that have no command named unalias keep the aliases.", "quantifier": "all such lines and sessions, all behaviours of the system, however they end", "why_tests_cant": "The set of inputs is infinite; a test only samples it.", "anchors": ["src/builtins.rs: change_directory, unalias", "src/eval.rs: eval_simple_command, call_builtin"]}
{"id": "C149", "title": "The interrupt key during a foreground command", "statement": "When the interrupt key is pressed while a foreground command runs and the command ends, the prompt is back at once, whatever else runs; the command is no job any more, and $? tells how it ended.", "quantifier": "all external commands, all reachable sessions with any other jobs, all ways the command ends, before or after the handler of the signal has returned", "why_tests_cant": "It must hold for every order in which children terminate and signals arrive; tests see one schedule per run.", "anchors": ["src/trap.rs: on_sig, on_sigint, sigclearmask, sig_chld", "src/jobs.rs: wait_process, wait_one, wait_for_job", "src/eval.rs: eval_pipeline"]}
{"id": "C150", "title": "Builtins start no process", "statement": "A line whose commands are all builtins that evaluate no other text (cd, exit, return, jobs, fg, bg, unalias, unset, pwd, readonly, exec and assignments), with arguments that contain no variables and no substitutions, is run by the shell itself: no process is started and none is tried to be started.", "quantifier": "all such lines and sessions of them, in all sessions where no builtin has been given another meaning by an alias, whatever the builtins report and however they fail", "why_tests_cant": "It must hold for every order in which children terminate and signals arrive; tests see one schedule per run.", "anchors": ["src/eval.rs: eval_simple_command, eval_builtin, eval_pipeline", "src/builtins.rs"]}
{"id": "C151", "title": "Only assignments change variables", "statement": "Lines in which no command (also in functions) is an assignment or named readonly, unset, export, eval, source, . or alias leave every variable that is not a positional parameter as it is, be it by its plain name or in a namespace, also if they call functions or words of theirs expand to such names.", "quantifier": "all such lines, interrupts and signals in between, all shells with well-formed contexts whose functions come from such lines, all variables, all behaviours of the system", "why_tests_cant": "The set of inputs is infinite; a test only samples it.", "anchors": ["src/context.rs: add_var, push_context, pop_context, add_function", "src/eval.rs: eval_function, eval_simple_command, eval_assignment"]}
{"id": "C152", "title": "export with several words is one export per word", "statement": "A line export w1 ... wn does exactly what the n lines export w1, ..., export wn do one after the other: the same variables, environment, functions and output, and it crashes exactly if one of them does.", "quantifier": "all numbers of words, all words (assignments and names, quoted or not), all states of the shell", "why_tests_cant": "It must hold from every reachable shell state and for every operation sequence; tests sample a few histories.", "anchors": ["src/builtins.rs: export", "src/context.rs: add_var_pos"]}
{"id": "C153", "title": "No argument of a builtin is silently ignored", "statement": "A builtin acts on all the words it is given or reports that it does not; alias with several words does what one alias for each of them does.", "quantifier": "all builtins, all lists of words, all states of the shell", "why_tests_cant": "The set of inputs is infinite; a test only samples it.", "anchors": ["src/builtins.rs: change_directory, exit, jobs, fg, bg, alias, unset, readonly, pwd, eval, exec"]}
{"id": "C154", "title": "Only definitions and unset change functions", "statement": "Lines in which no command (also in functions) is the definition of a function or named unset, export, eval, source, . or alias leave every function as it is, be it by its plain name or in a namespace, also if they call functions, assign variables of the same names or make variables read-only.", "quantifier": "all such lines, interrupts and signals in between, all shells with well-formed contexts whose functions come from such lines, all functions, all behaviours of the system", "why_tests_cant": "The set of inputs is infinite; a test only samples it.", "anchors": ["src/context.rs: add_function, remove_function, push_context, pop_context", "src/eval.rs: eval_function, eval_command"]}
{"id": "C155", "title": "Programs without recursion end", "statement": "If no function calls itself, directly or through others, there are no aliases, and a line uses no eval, source, ., export or alias and only literal arguments, then the nesting of evaluations on that line is bounded by the rank of the commands in it: a rank k line needs at most k + 1 levels, whatever the system does, and what it does does not depend on how much more room there is. The same holds for whole runs of the shell, interactive, with a script or with -c.", "quantifier": "all assignments of ranks to names, all such lines and runs, all states whose functions respect the ranks, all behaviours of the system", "why_tests_cant": "It must hold for every order in which children terminate and signals arrive; tests see one schedule per run.", "anchors": ["src/eval.rs: eval_function, eval_compound_command, eval_simple_command", "src/context.rs: add_function"]}
{"id": "C156", "title": "Redirections and assignments around function calls", "statement": "Redirections and assignments written with a call of a function hold for the commands run by the function, and are undone when it returns.", "quantifier": "all function calls in the foreground with any redirections and assignments, all bodies, all shell states, all behaviours of the system", "why_tests_cant": "The set of inputs is infinite; a test only samples it.", "anchors": ["src/eval.rs: eval_pipeline, eval_function, eval_prefix_suffix"]}
{"id": "C157", "title": "Functions named like builtins and programs", "statement": "A function hides the builtin and the programs of its name.", "quantifier": "all function calls and builtin calls, all shell states, all behaviours of the system", "why_tests_cant": "The set of inputs is infinite; a test only samples it.", "anchors": ["src/eval.rs: eval_simple_command, is_builtin, eval_pipeline, eval_function"]}
{"id": "C158", "title": "Jobs can be named by number or by process", "statement": "fg and bg do exactly the same whether the job is named by its number or by the pid of any of its processes.", "quantifier": "all shell states, all jobs, all pairs of names of a job, all further arguments, all behaviours of the system", "why_tests_cant": "It must hold from every reachable shell state and for every operation sequence; tests sample a few histories.", "anchors": ["src/builtins.rs: fgbg", "src/jobs.rs: get_job, get_job_by_pid"]}
{"id": "C159", "title": "Scripts do what typed lines do", "statement": "A line does the same typed at the prompt, in a script file and after -c, and what goes wrong with it is reported in all three.", "quantifier": "all lines and sequences of lines, all shell states, all behaviours of the system", "why_tests_cant": "It must hold from every reachable shell state and for every operation sequence; tests sample a few histories.", "anchors": ["src/main.rs: interactive_loop, script_loop, read_from_args"]}
{"id": "C160", "title": "Only programs named in the input are run", "statement": "If the commands in the input (typed lines, start-up files, script, text after -c, functions) are builtins other than eval, source, ., export, alias and exec or commands with literal names out of a list, with literal arguments, then every program the shell or any forked copy of it ever starts is the file of one of the listed names in some directory, and is started under that name; with an empty list no program is ever started.", "quantifier": "all lists of names, all such inputs, arguments and environments, all behaviours of the system", "why_tests_cant": "It must hold for every order in which children terminate and signals arrive; tests see one schedule per run.", "anchors": ["src/eval.rs: eval_simple_command, eval_pipeline, eval_function", "src/context.rs: lookup_command", "src/main.rs: main"]}
{"id": "C161", "title": "Sessions of external commands follow the usual rules", "statement": "When lines of pipelines of external commands, joined by &&, || and ;, are typed while there are no jobs, and every program exits, the first of each pipeline first, with a status given in advance for each process: exactly the pipelines run that run by the usual rules for && (after status 0), || (after another status) and ;, in the same order, where the status of a pipeline is that of its first program; each program has its arguments and the environment, directory and reactions to signals of the shell, and those of a pipeline are connected; no other process is started; each line leads back to the prompt, in the end the status is the one given by the rules, there is no job, and variables, aliases, environment, directory and descriptors are as before.", "quantifier": "all sequences of lines of any length, all commands with words of the given forms, all exit statuses, all states at the prompt without jobs", "why_tests_cant": "It must hold from every reachable shell state and for every operation sequence; tests sample a few histories.", "anchors": ["src/eval.rs: eval_list, eval_and_or, eval_pipeline", "src/jobs.rs: wait_for_job, do_wait", "src/main.rs: interactive_loop"]}
{"id": "C162", "title": "Sessions with variables and directories follow a reference interpreter", "statement": "For lines of assignments, cd and pipelines of external commands (arguments are words, texts in single or double quotes, words with quotes in the middle, or $x), joined by &&, || and ;, typed while there are no jobs: given how the processes exit and where each directory leads, the shell runs exactly the pipelines a small reference interpreter runs, in that order, each with the arguments and in the directory the reference computes from the variables; a cd that fails ends its line and no more; afterwards the variables, the directory and the recorded status are those of the reference.", "quantifier": "all such sessions of any length, all shell states at the prompt without jobs, all exit statuses, all effects of cd", "why_tests_cant": "Programs of this language are unbounded in length and nesting, and what they do depends on variables, exit statuses and the outside world together; tests compare a few runs.", "anchors": ["src/eval.rs: eval, eval_and_or, eval_pipeline", "src/context.rs: add_var, get_var", "src/builtins.rs: assignment, change_directory", "src/ast.rs: expand_vars", "src/main.rs: interactive_loop"]}
{"id": "C163", "title": "Only files named in the input are opened", "statement": "If the commands in the input (typed lines, start-up files, script, text after -c, functions) are builtins other than eval, source, ., export and alias or commands with literal names, with literal arguments and with redirections out of a list of files and ways of opening them, then every file the shell or any forked copy of it ever opens for a redirection is one of the list, opened in the way given there; a typed line of this kind makes the shell read no text file; without redirections no file is opened for any.", "quantifier": "all lists of files, all such inputs, arguments and environments, all behaviours of the system", "why_tests_cant": "It must hold for every order in which children terminate and signals arrive; tests see one schedule per run.", "anchors": ["src/eval.rs: eval_redirect, eval_prefix_suffix, eval_pipeline, eval_function", "src/main.rs: main"]}
{"id": "C164", "title": "Sessions with functions follow a reference interpreter", "statement": "For lines as in C162 (in any layout, with comments and empty lines), also with export x=value and unset x or unset -v x (names other than PATH, and PS1 for unset), exit and exit n, pwd, jobs, return, fg or bg with the number of a job that is not there, unset, readonly, exec and source without arguments (errors), source or . of files that are missing or hold such lines (also lines that read the same file again), eval of a word whose value is such a line or not a program (further words are ignored), return n, pipelines with assignments before the names and redirections among the arguments (plain file names; those of commands that are not functions can be opened), and definitions of functions f ( ) { ... } whose bodies are such lines, also several on one line, where a command, also within a pipeline, may be the call of a function (with arguments without = and with few digits): if a small reference interpreter with a stack of scopes gets through the session with calls, source and eval nested at most n deep, then the shell does, given room for as many; it runs exactly the pipelines the reference runs, in that order, each with the arguments, in the directory and with the environment the reference gives, connected by pipes but for what is redirected; an assignment before the name of a program is seen by that program only; if there are functions in a pipeline they are called first, one after the other, and the programs are then started where the functions have left the shell, connected to each other, but with the arguments as they were before, while assignments and redirections of the functions have no effect; for a command that no directory of PATH has a child is started that runs no program and exits with status 1, while the other commands of its pipeline are run and connected as if it existed; export puts a variable into the environment of what is started later and into the outermost scope, unset takes it from the innermost scope that has it and leaves the environment; an error in the body of a function ends the body, and the call has status 0; source p args (p with a /) binds $1, $2, ... in the scope it is called in and runs what is in the file there, so that what the file sets stays, and has status 0; if the file is missing, or something in it fails, the line ends there; eval runs the value of its word in the same way, and return only records n, without leaving the function; exit, anywhere in a line or in the body of a function or in what source and eval run, ends the shell with status n or the last one, and the last thing the shell then does is to save its history, or to say that this is not possible; the variables first set in a call, parameters included, are gone after it; to its own standard output the shell writes the value of PS1 before each line (also an empty one or a comment), the current directory and a line break for each pwd, also in functions, files and eval, and the message and a line break for each line that fails, in this order and nothing else; afterwards the variables, functions, environment, directory and recorded status are those of the reference.", "quantifier": "all such sessions of any length, with any nesting and recursion of calls, all shell states at the prompt without jobs, all exit statuses, all effects of cd", "why_tests_cant": "Programs of this language are unbounded in length and nesting, and what they do depends on variables, exit statuses and the outside world together; tests compare a few runs.", "anchors": ["src/eval.rs: eval, eval_and_or, eval_pipeline, eval_function", "src/context.rs: add_var, get_var, add_function, push_context_new, pop_context", "src/builtins.rs: export, unset, quit, source, eval_cmd, return_cmd, pwd, jobs, fgbg, readonly, exec_cmd", "src/main.rs: interactive_loop"]}
{"id": "C165", "title": "Scripts follow a reference interpreter from the start of the shell to its end", "statement": "Started as rsh SCRIPT ARGS, with start-up files that are missing or hold programs as in C164 that do not fail, and with an environment of passable names, on a script of lines as in C164 (in any layout, with comments and empty lines): the shell runs exactly the pipelines the reference interpreter runs when it starts with the environment, $0 and the arguments as its variables and first runs the start-up files, in that order, with the arguments, environments and directories the reference gives, and when the reference comes to exit, in the script, in a function or in a start-up file, it ends with the status of the reference, after saving the history or saying that this is not possible; what follows in the script does not matter. If the reference does not come to exit the shell runs the same and then never ends. With -c and one such line it runs the same and ends with the status of exit, or else with status 0. If the start-up files without a program are missing or blank, then the shell itself writes exactly the lines about its arguments (C127) and, in order, the directory for each pwd in start-up files and lines: no prompts, and no messages for lines that fail.", "quantifier": "all such scripts, arguments and environments, all exit statuses, all effects of cd", "why_tests_cant": "Programs of this language are unbounded in length and nesting, and what they do depends on variables, exit statuses and the outside world together; tests compare a few runs.", "anchors": ["src/main.rs: main, script_loop, read_from_args", "src/shell.rs: set_input_args, set_script_name, set_arg_0", "src/eval.rs: eval", "src/context.rs: init, add_var, get_var", "src/builtins.rs: quit"]}
{"id": "C166", "title": "Interactive sessions follow a reference interpreter from the start of the shell to its end", "statement": "Started without script and -c, with start-up files as in C165 and an environment of passable names, on lines as in C164 (in any layout, with comments and empty lines): the shell runs exactly the pipelines the reference interpreter runs when it starts with the environment and $0 as its variables and first runs the start-up files, in that order, with the arguments, environments and directories the reference gives. When the reference comes to exit, in a line, in a function or in a start-up file, the shell ends with its status, and otherwise at the end of the input with status 0; the last thing it does is to save the history, or to say that this is not possible. The file is history.txt, but it has an empty name if a start-up file comes to exit. If the start-up files without a program are missing or blank, then the shell itself writes exactly the lines about its arguments (C127), the directory for each pwd in the start-up files, then for each line the prompt, the directory for each pwd and the message if the line fails, and at the end of the input one more prompt.", "quantifier": "all such sessions and environments, all exit statuses, all effects of cd", "why_tests_cant": "Programs of this language are unbounded in length and nesting, and what they do depends on variables, exit statuses and the outside world together; tests compare a few runs.", "anchors": ["src/main.rs: main, interactive_loop", "src/shell.rs: set_arg_0", "src/eval.rs: eval", "src/context.rs: init, add_var, get_var", "src/builtins.rs: quit", "src/trap.rs: set_signal"]}
{"id": "C167", "title": "A start-up file that fails crashes the shell, after doing what it says up to there", "statement": "In the setting of C165 and C166, if a command of a start-up file fails with an error (a cd to a directory that is not there, source of a missing file, eval of a text that is not a program), the shell crashes, whether it was started for a script, with -c or for a session: until then it ran exactly what the reference interpreter runs of the start-up files, in that order, and nothing of the script, the program or the input is run; if the start-up files without a program are missing or blank, then what the shell itself writes to its standard output are exactly the lines about its arguments (C127) and the directory for each pwd before the failure.", "quantifier": "all start-up files of C164 programs, all environments, arguments, scripts and inputs, all exit statuses and directories", "why_tests_cant": "It must hold from every reachable shell state and for every operation sequence; tests sample a few histories.", "anchors": ["src/main.rs: main, read_user_profile, read_rc", "src/eval.rs: eval"]}
{"id": "C168", "title": "Redirections and assignments within pipelines", "statement": "When a pipeline of external commands with redirections and assignments in any of its commands is typed at a prompt, in the foreground or in the background, one process is started for each command, in order; it opens the files of its own command, in the order typed, and then is the program; a descriptor that is redirected leads to the file of the last redirection of it, also where it would be an end of a pipe otherwise, and everything else is connected as it would be without redirections; the environment of each program is that of the shell changed by the assignments of its own command only, where the last assignment of a name counts.", "quantifier": "all pipelines of any length of external commands that are found, any number of redirections and assignments with plain values, all files that can be opened, all states at the prompt", "why_tests_cant": "It must hold from every reachable shell state and for every operation sequence; tests sample a few histories.", "anchors": ["src/eval.rs: eval_pipeline, eval_prefix_suffix, eval_redirect, eval_simple_command", "src/context.rs: set_env"]}
