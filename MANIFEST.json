{
 "claims": [
  {
   "property": "C01",
   "status": "proved",
   "theorems": [
    "Rsh.C01_lex_total",
    "Rsh.C01_lex_eof"
   ],
   "note": "C01: lexing never panics, yields at most one item per character plus one, no further call yields anything, and the last item and no other is EOF. C01, for the token sequence: when no character is rejected, EOF is the last token and only the last."
  },
  {
   "property": "C02",
   "status": "proved",
   "theorems": [
    "Rsh.C02_spans"
   ],
   "note": "C02: spans are non-empty, inside the input, in order and disjoint; word and number tokens carry exactly the source text of their span."
  },
  {
   "property": "C03",
   "status": "proved",
   "theorems": [
    "Rsh.C03_star",
    "Rsh.C03_star_rejected"
   ],
   "note": "C03: an error is reported only for a `*`, at its position; without `*` no input is rejected. A `*` where a token could start is rejected, wherever it is."
  },
  {
   "property": "C04",
   "status": "proved",
   "theorems": [
    "Rsh.C04_leading_blanks",
    "Rsh.C04_which",
    "Rsh.C04_blanks",
    "Rsh.C04_blank_runs"
   ],
   "note": "C04 at the beginning of the input. **C04**: the blanks are exactly the Unicode white space other than the newline: tab, vertical tab, form feed, carriage return, space, next line, no-break space, ogham space, the spaces from U+2000 to U+200A, the line and paragraph separators and the narrow no-break, mathematical and ideographic spaces. C04 in the middle of the input: wherever the lexer stands before a run of blanks, the tokens that follow are those of the text after the blanks. C04 as a statement about texts: between two tokens any non-empty run of blanks may replace any other. `h` says that a token ends just before the blanks."
  },
  {
   "property": "C05",
   "status": "proved",
   "theorems": [
    "Rsh.C05_comment",
    "Rsh.C05_leading_comment"
   ],
   "note": "C05: wherever a token may start, a comment up to the end of the line (or of the input) contributes no token. C05 at the beginning of the input."
  },
  {
   "property": "C06",
   "status": "proved",
   "theorems": [
    "Rsh.C06_plain_line"
   ],
   "note": "C06: plain words separated by blanks are tokenised to exactly those words and EOF."
  },
  {
   "property": "C07",
   "status": "proved",
   "theorems": [
    "Rsh.C07_quoted",
    "Rsh.C07_substitution",
    "Rsh.C07_unclosed",
    "Rsh.C07_substitution_unclosed",
    "Rsh.C07_anywhere"
   ],
   "note": "C07: a token opened by `'`, `\"` or a back quote runs to the first following delimiter, whatever is in between. C07 for `$(`. C07, no closing delimiter: the token is the rest of the input. C07, no closing parenthesis. C07 in the middle of the input: wherever a token may start. `close` is the delimiter that ends a token that begins with `opening`."
  },
  {
   "property": "C08",
   "status": "proved",
   "theorems": [
    "Rsh.C08_unambiguous",
    "Rsh.C08_parse_none"
   ],
   "note": "C08: the parser finds a tree exactly when the grammar derives it, and there is at most one. C08 for texts: an input is rejected exactly when the lexer rejects it or the grammar derives no tree for its tokens."
  },
  {
   "property": "C09",
   "status": "proved",
   "theorems": [
    "Rsh.C09_left_chain"
   ],
   "note": "C09: a chain of pipelines joined by `&&` and `||` (in any order, each optionally followed by a newline) parses to the left-nested tree, `|` binding tighter than both."
  },
  {
   "property": "C10",
   "status": "proved",
   "theorems": [
    "Rsh.C10_balanced"
   ],
   "note": "C10: in every accepted token sequence braces are balanced and parentheses occur only as `()`."
  },
  {
   "property": "C11",
   "status": "partial",
   "theorems": [
    "Rsh.C11_leading_separator_rejected",
    "Rsh.C11_counterexample",
    "Rsh.C11_blank_partial"
   ],
   "note": "C11 fails: no program that begins with a separator (blank line, comment line, `;`) is accepted as anything but the empty program, so a leading blank line makes every non-empty program a syntax error. Witness: the program `ls` is accepted, `ls` after a blank line, a comment line or a `;` is not. C11, the part that holds: a text of blanks, comments and at most one line end is accepted as the empty program; and where a brace group begins, a leading newline is accepted and changes nothing. Missing: a blank line, comment line or `;` in front of a non-empty program, which is rejected (`C11_leading_separator_rejected`)."
  },
  {
   "property": "C12",
   "status": "partial",
   "theorems": [
    "Rsh.C12_trailing_partial",
    "Rsh.C12_semi_newline_rejected",
    "Rsh.C12_counterexample"
   ],
   "note": "C12, the part that holds: a list may be followed by `;`, by one or two line-end tokens (the lexer joins adjacent line ends), or by `;` and two line-end tokens, without changing its meaning. Missing: `;` directly followed by one line end (`C12_semi_newline_rejected`). C12 fails: no accepted program ends with `;` and one line end, whatever precedes. Witness as texts."
  },
  {
   "property": "C13",
   "status": "partial",
   "theorems": [
    "Rsh.C13_amp_command_rejected",
    "Rsh.C13_counterexample",
    "Rsh.C13_amp_sep_partial"
   ],
   "note": "C13 fails: in no accepted token sequence does a command directly follow `&`; `a & b` is a syntax error for all commands `a` and `b`. Witness. C13, the part that holds: with a `;` or line end between them, `a & ; b` is the list of the background pipeline `a` and the and-or chain `b`. Missing: `a & b` itself, which is rejected (`C13_amp_command_rejected`)."
  },
  {
   "property": "C14",
   "status": "partial",
   "theorems": [
    "Rsh.C14_reserved_rejected",
    "Rsh.C14_reserved_line_rejected",
    "Rsh.C14_counterexample",
    "Rsh.C14_arguments_partial"
   ],
   "note": "C14 fails: no accepted program contains a reserved-word token, in any position. C14 fails for every position: a line of words one of which is a reserved word is rejected, whatever the other words are. Witness: `echo done`. C14, the part that holds: the arguments of a command may be any plain words and any quoted texts (so a quoted reserved word), which all reach the command. Missing: unquoted reserved words, which make the line a syntax error (`C14_reserved_line_rejected`)."
  },
  {
   "property": "C15",
   "status": "proved",
   "theorems": [
    "Rsh.C15_syntaxError"
   ],
   "note": "C15: a line that does not parse changes nothing; only a message is printed."
  },
  {
   "property": "C16",
   "status": "proved",
   "theorems": [
    "Rsh.C16_argv"
   ],
   "note": "C16: a line of plain words starts exactly one process, and its arguments are the words."
  },
  {
   "property": "C17",
   "status": "proved",
   "theorems": [
    "Rsh.C17_singleQuotes",
    "Rsh.C17_any"
   ],
   "note": "C17: an argument in single quotes reaches the command as the text between them. C17: such an argument, whatever its text, is one the statement above applies to."
  },
  {
   "property": "C18",
   "status": "proved",
   "theorems": [
    "Rsh.C18_doubleQuotes",
    "Rsh.C18_any"
   ],
   "note": "C18: an argument in double quotes without `$` and backtick reaches the command as the text between the quotes. C18: such an argument, whatever its text, is one the statement above applies to."
  },
  {
   "property": "C19",
   "status": "partial",
   "theorems": [
    "Rsh.C19_dollar_partial",
    "Rsh.C19_characterLost",
    "Rsh.C19_crash"
   ],
   "note": "C19, as far as it holds: in double quotes a `$` that starts no command substitution is kept, and of the other characters only the one after each `$` is lost. (What is missing: that character is lost, and a `$` at the end of the text ends the shell; see below.) C19 fails: the character after the `$` is lost, though `b` is neither a substitution nor a set variable. C19 fails: a text that ends in `$` makes the shell crash, whatever the text before it."
  },
  {
   "property": "C20",
   "status": "partial",
   "theorems": [
    "Rsh.C20_var_partial",
    "Rsh.C20_quotes"
   ],
   "note": "C20, as far as it holds: an argument `$name` is replaced by the value of the variable, and is one argument. (What is missing: values that begin with a quote; see below.) C20 fails: the quotes in a value are taken for quotes."
  },
  {
   "property": "C21",
   "status": "partial",
   "theorems": [
    "Rsh.C21_notExecuted_partial",
    "Rsh.C21_covered",
    "Rsh.C21_executed"
   ],
   "note": "C21, as far as it holds: when a line of words, variables among them, starts a command, nothing else is started: no value that does not begin with a double quote, or has neither `$(` nor a backtick, is executed. (What is missing: values that begin with a double quote and contain a substitution; see below.) C21: every value that does not begin with a double quote is covered above. C21 fails: a value that begins with a double quote is executed."
  },
  {
   "property": "C22",
   "status": "partial",
   "theorems": [
    "Rsh.C22_plain_partial",
    "Rsh.C22_notExpanded",
    "Rsh.C22_dollarName",
    "Rsh.C22_counterexample"
   ],
   "note": "C22, as far as it holds: a right-hand side without `$` and quotes is assigned as it is. (What is missing is the very case of a variable on the right-hand side; see below.) C22 fails, always: `x=$y` gives `x` the text `$y`, whatever the value of `y` (unless a variable is called `$y`, with the dollar sign). And if there is a variable called `$y`, with the dollar sign, then `x` gets the value of that one. C22 fails."
  },
  {
   "property": "C23",
   "status": "partial",
   "theorems": [
    "Rsh.C23_alias_partial",
    "Rsh.C23_order",
    "Rsh.C23_counterexample"
   ],
   "note": "C23, as far as it holds: a command given by an alias runs the first word of the alias; its arguments are the ones typed, then the rest of the alias. So the order is right when one of the two is empty. (What is missing: both are present; see below.) C23 fails for every command given by an alias with arguments of its own when others are typed: they are given to the program in the order typed ones, then those of the alias, the reverse of what was written. C23 fails: the arguments of the alias come after the ones typed."
  },
  {
   "property": "C24",
   "status": "partial",
   "theorems": [
    "Rsh.C24_aliases_partial",
    "Rsh.C24_equals",
    "Rsh.C24_dashP",
    "Rsh.C24_dashA",
    "Rsh.C24_refused",
    "Rsh.C24_several"
   ],
   "note": "C24, as far as it holds: aliases behave as a map, for the names and values that work. (What is missing: values with `=` or `-p` and names with `-a`; see below.) C24 fails: a value with `=` is refused. C24 fails: a value with `-p` is not stored. C24 fails: removing an alias whose name contains `-a` removes all. C24: a definition with two equal signs is refused with a message on the standard error, and changes nothing. **C24**: one `alias` command can give several definitions: they have the effect of as many commands with one definition each, a later definition of a name taking the place of an earlier one."
  },
  {
   "property": "C25",
   "status": "partial",
   "theorems": [
    "Rsh.C25_substitution_partial",
    "Rsh.C25_large",
    "Rsh.C25_counterexample",
    "Rsh.C25_any_partial",
    "Rsh.C25_stuck"
   ],
   "note": "**C25**, the part that holds: the program of a command substitution in double quotes (written with `$(…)` or with backticks) runs with its standard output connected to a pipe; if what it writes there fits into the pipe, it takes the place of the substitution, without the blanks around it. If there is then a space in the text, it is cut into words; else it is one argument, as it should be. The other words of the line are not affected. (What is missing: output that does not fit, output that looks like a command substitution, and commands other than one external program that exits, while there is no other job.) **C25** fails for output that does not fit into a pipe: the shell never comes back. **C25** is false as stated: output with a blank inside becomes several arguments, output that is a command substitution is run again, and a command that writes more than fits into a pipe stops the shell. **C25** for any text in the substitution, as far as it holds: a copy of the shell evaluates the text, with its standard output and standard error connected to a pipe. If everything it, the programs it starts and the programs these start write there fits into the pipe, it takes the place of the substitution, without the blanks around it. If there is then a space in the text, it is cut into words; else it is one argument, as it should be. (What is missing: output that does not fit, and output that looks like a command substitution.) **C25** fails for any text whose output does not fit into a pipe, or that never ends: the shell does not come back."
  },
  {
   "property": "C26",
   "status": "partial",
   "theorems": [
    "Rsh.C26_splits_partial",
    "Rsh.C26_panics",
    "Rsh.C26_counterexample",
    "Rsh.C26_words"
   ],
   "note": "**C26**, the part that holds: when the blanks outside quotes are of one byte, the name is split at exactly these blanks, and splitting does not panic. Blanks of two or three bytes are not covered. **C26**, the exception: splitting panics for every name with a blank of several bytes outside quotes, and for no other. **C26** is false as stated: a no-break space outside quotes stops the shell, here when the name of a command is the value of a variable. **C26**: when the name of a command is a variable, its value is cut at the blanks outside quotes: the first piece is the program that runs, the others are its first arguments, and the arguments of the line follow."
  },
  {
   "property": "C27",
   "status": "partial",
   "theorems": [
    "Rsh.C27_trim_partial",
    "Rsh.C27_lone",
    "Rsh.C27_counterexample"
   ],
   "note": "C27, the part that holds: trimming is total, takes off exactly one pair of matching outer quotes when the text has one, and leaves every other text unchanged. Missing: a text that is one lone quote character (`C27_lone`). C27 fails for a lone quote character: it disappears although nothing matches it. The lone quote is reachable: `export 'X=\"'` sets `X` to the empty text."
  },
  {
   "property": "C28",
   "status": "proved",
   "theorems": [
    "Rsh.C28_innermost"
   ],
   "note": "C28: looking up an unqualified name yields the binding of the innermost context that has one, and nothing if no context on the stack has one; and that determines the result."
  },
  {
   "property": "C29",
   "status": "proved",
   "theorems": [
    "Rsh.C29_assign"
   ],
   "note": "C29: an assignment to a name that is not read-only succeeds. It goes to the innermost context that has the name, or else to the current context; there it sets the value without its outer quotes; nothing else changes in any context. Hence the name then has that value, and the lookup of every other name, unqualified or in a namespace, of every function and of the same name in every namespace that does not share the context are as before."
  },
  {
   "property": "C30",
   "status": "partial",
   "theorems": [
    "Rsh.C30_value_partial",
    "Rsh.C30_counterexample"
   ],
   "note": "C30, the part that holds: the value a successful assignment leaves behind is the text after the first `=` up to the next `=`, outer quotes removed; so a value without `=` is kept completely. Missing: values that contain `=` (`C30_counterexample`). C30 fails: `X='a=b'` gives `X` the value `'a`, and `export 'X=a=b'` the value `a`."
  },
  {
   "property": "C31",
   "status": "partial",
   "theorems": [
    "Rsh.C31_readonly_partial",
    "Rsh.C31_counterexample",
    "Rsh.C31_visible_partial",
    "Rsh.C31_session_partial"
   ],
   "note": "C31, the part that holds: no sequence of assignments (in any context), function calls and returns, function definitions and removals, naming and unnaming of contexts and further `readonly NAME` changes or removes a read-only variable. Missing: `readonly NAME=value`, `export NAME=value` and `unset NAME` (`C31_counterexample`). C31 fails: each of `readonly X=2`, `unset X` and (for an exported variable) `export X=2` changes or removes a read-only variable. C31, the part that holds, for what `$x` shows: after any sequence of assignments (in any context), function calls and returns, function definitions and removals, naming and unnaming of contexts and further `readonly NAME`, at whose end the contexts of the beginning are in place again, a read-only variable that was the innermost of its name is so still. C31 for sessions, the part that holds: at every prompt reached by lines, interrupts and signals such that no command that runs (also in functions) is named `readonly`, `unset`, `export`, `eval`, `source`, `.` or `alias`, every read-only variable still has its value: those that plain names show, and those in any context that existed. Missing: the commands named (`C31_counterexample`)."
  },
  {
   "property": "C32",
   "status": "partial",
   "theorems": [
    "Rsh.C32_accepted_partial",
    "Rsh.C32_crash",
    "Rsh.C32_counterexample"
   ],
   "note": "C32, the part that holds: setting positional parameter `i` to a text, for the whole script or in a function call, is accepted when the position and the text have at most 19 digits together. Missing: texts with more digits, `C32_crash`. C32 fails: a text with twenty or more digits crashes the shell, in whatever state, as a script argument and (unless the position is read-only) as an argument of a function. C32 fails at the prompt."
  },
  {
   "property": "C33",
   "status": "partial",
   "theorems": [
    "Rsh.C33_parameters_partial",
    "Rsh.C33_counterexample",
    "Rsh.C33_exact",
    "Rsh.C33_digits",
    "Rsh.C33_always",
    "Rsh.C33_crashes"
   ],
   "note": "C33, the part that holds: a call whose arguments are plain runs its body in a new context on top of the caller's, in which `$0` is the function's name and `$i` the i-th argument; every other variable and every function is the caller's. Afterwards that context is dropped. Missing: arguments with `=`, with outer quotes, or with too many digits, and the argument `&` (`C33_counterexample`; what these become is in `C33_exact` and `C33_digits`), and parameters hidden by a read-only variable. C33 fails for arguments with `=` (cut there), with outer quotes (removed) and for `&` (it is not bound, nor is anything after it). C33, for every call whatever its arguments: if no read-only variable is in the way and the digits fit, the body runs in a new context in which `$0` and `$1`, … are what is kept of the name and of the words before the first `&`; every other variable and every function is the caller's. C33, the other calls: if the digits of an argument and of its position do not fit, the call crashes the shell. C33, for every call whatever its arguments and whatever read-only variables there are: a parameter whose name is that of a read-only variable keeps the value of that variable; the others are what is kept of the name and of the words before the first `&`, if their digits fit. C33, the other calls: if the digits of an argument and of its position do not fit, and no read-only variable is in the way of that argument, the call crashes the shell. With `C33_always` this covers every call of a brace group."
  },
  {
   "property": "C34",
   "status": "partial",
   "theorems": [
    "Rsh.C34_restored_partial",
    "Rsh.C34_counterexample"
   ],
   "note": "C34, the part that holds: when the body returns (normally or with an error) without having assigned a positional parameter itself, a positional parameter the caller did not have is unset again after the call, and one whose number is larger than the number of arguments is as before. The last part says how C34 fails: the caller's other parameters now have the values they had in the call. C34 fails: `$0` of the session becomes the name of the function called last, and `$1` of a calling function the argument of the function it called."
  },
  {
   "property": "C35",
   "status": "partial",
   "theorems": [
    "Rsh.C35_stack_partial",
    "Rsh.C35_counterexample"
   ],
   "note": "C35, the part that holds: a function call that returns keeps the caller's contexts, in order, at the bottom of the stack, so the global context is still there; and the stack is exactly the caller's when no program file loaded by `export context` fails. Missing: a body that loads a failing file (`C35_counterexample`). C35 fails: a function that runs `export context` on a file whose evaluation fails returns with the file's context still on the stack."
  },
  {
   "property": "C36",
   "status": "partial",
   "theorems": [
    "Rsh.C36_stack_partial",
    "Rsh.C36_counterexample",
    "Rsh.C36_reachable"
   ],
   "note": "C36, the part that holds: evaluating any program that returns, normally or with an error, keeps the contexts that were there, in order, at the bottom of the stack, so the global context is never lost; and the stack is exactly as before when no program file loaded by `export context` fails. Missing: such a file (`C36_counterexample`). C36 fails: loading a program file that fails leaves its context on the stack, so that later assignments go to it. The well-formedness asked for in C33-C36 holds at every prompt of every session."
  },
  {
   "property": "C37",
   "status": "proved",
   "theorems": [
    "Rsh.C37_namespaces"
   ],
   "note": "C37: an unqualified name is looked up on the stack only, whatever contexts are exported; `ns::x` is looked up only in the context exported as `ns`, whatever is on the stack; an unknown namespace has no names. The same holds for functions."
  },
  {
   "property": "C38",
   "status": "proved",
   "theorems": [
    "Rsh.C38_shares"
   ],
   "note": "C38: `export context ns=self` succeeds and changes nothing but the namespace table. From then on, after any sequence of assignments, function calls and definitions and namings of other contexts, an assignment that goes to that context is visible as `ns::name`."
  },
  {
   "property": "C39",
   "status": "partial",
   "theorems": [
    "Rsh.C39_export_partial",
    "Rsh.C39_received",
    "Rsh.C39_stays",
    "Rsh.C39_counterexample"
   ],
   "note": "C39, as far as it holds: `export x=t` puts the value into the environment and into the outermost context, where every context sees it that does not have a variable of that name; nothing else changes. (What is missing: values with `=` or `-p`; see below.) C39: every command started at a prompt receives the environment as it is. C39: a name that is in the environment once is there at every later prompt. C39 fails: the value is cut at a `=`, and a value with `-p` is not exported at all."
  },
  {
   "property": "C40",
   "status": "partial",
   "theorems": [
    "Rsh.C40_visible_partial",
    "Rsh.C40_environment",
    "Rsh.C40_counterexample"
   ],
   "note": "C40, as far as it holds: `export x` copies the variable to the outermost context. (What is missing is the environment; see below.) C40 fails: `export x` leaves the environment as it is, whatever the variables are. C40 fails."
  },
  {
   "property": "C41",
   "status": "partial",
   "theorems": [
    "Rsh.C41_environment",
    "Rsh.C41_unset_partial",
    "Rsh.C41_counterexample",
    "Rsh.C41_line"
   ],
   "note": "C41 fails for every name of the environment: nothing a session does (`unset` included) takes it out of the environment of the programs started later; only `exec -c` starts a program without it, whose environment is empty. C41, the part about variables: `unset NAME` removes the innermost binding, so the next outer one (or none) becomes visible; nothing else changes. Missing: the process environment keeps `NAME` (`C41_counterexample`). C41 fails for the environment: after `export X=1` and `unset X` the name has no value, but the next program is still given `X=1`. **C41**: `unset NAME` and `unset -v NAME` take away the innermost variable of that name, and change nothing else: no other variable, no function, no alias, not the environment."
  },
  {
   "property": "C42",
   "status": "proved",
   "theorems": [
    "Rsh.C42_define",
    "Rsh.C42_remove",
    "Rsh.C42_line"
   ],
   "note": "C42, defining: the function is then found under its name with exactly that body; the definition replaces the visible one, or is new in the current context; every other function and every variable is as before. C42, removing: `unset -f NAME` removes the innermost definition and uncovers the next outer one. **C42**: `unset -f NAME` takes away the innermost function of that name, and changes nothing else: no other function, no variable, no alias, not the environment."
  },
  {
   "property": "C43",
   "status": "proved",
   "theorems": [
    "Rsh.C43_newIdUnused",
    "Rsh.C43_session"
   ],
   "note": "C43 (operations). Whatever job operations were performed, a new job gets an id that no job in the table has; the new job is found under that id and every other job stays as it is. C43 (sessions). At every prompt of every interactive session the ids in the job table are pairwise different and the next id to be given is not among them."
  },
  {
   "property": "C44",
   "status": "partial",
   "theorems": [
    "Rsh.C44_delete_partial",
    "Rsh.C44_deleteByPid_partial",
    "Rsh.C44_deleteMissing",
    "Rsh.C44_stoppedPipelineLost",
    "Rsh.C44_stoppedPipelineLost_session"
   ],
   "note": "C44, as far as it holds: deleting leaves every other job as it is, removes the job when its first process is not stopped, and keeps it marked Stopped when that process is stopped. (What is missing: a pipeline whose first process has exited while a later one is stopped is removed too; see below.) C44, deletion by pid: the same effect as deletion by the id of the job the pid belongs to. C44: deleting a job that does not exist changes nothing. C44 fails: in a pipeline of two the first process exits and the second one is stopped. All of it is stopped or terminated, the shell notes the job as Stopped, yet deleting the job removes it: the stopped process can no longer be continued with `fg` or `bg`. The same, at the prompt: after `a | b` was stopped this way `fg %1` finds no job."
  },
  {
   "property": "C45",
   "status": "proved",
   "theorems": [
    "Rsh.C45_found",
    "Rsh.C45_forgotten",
    "Rsh.C45_session"
   ],
   "note": "C45 (operations): after any sequence of job operations in which processes get pids of their own, a job is found by the pid of each of its started processes. C45 (deletion): once a job has been deleted, by id or by pid, none of its pids resolves to a job. C45 (sessions): at every prompt of every session on a system that gives children pids of their own, a job is found by the pid of each of its started processes."
  },
  {
   "property": "C46",
   "status": "partial",
   "theorems": [
    "Rsh.C46_latest_partial",
    "Rsh.C46_current_partial",
    "Rsh.C46_created_partial",
    "Rsh.C46_crash",
    "Rsh.C46_crash_session"
   ],
   "note": "C46, as far as it holds: after any sequence of operations the current job is the one that was created, made the current one or stopped last, as long as it is in the table; there is none if that has never happened. (What is missing: when that job is not there any more, the shell crashes.) C46, as far as it holds: asking for the current job crashes exactly when the job last noted as current is not in the table any more; never while it is, and never before any job was created. C46, as far as it holds: right after a job was created the current job is that job. C46 fails: after the only job was deleted, asking for the current job crashes. C46 fails at the prompt: after one foreground command has finished."
  },
  {
   "property": "C47",
   "status": "partial",
   "theorems": [
    "Rsh.C47_text_partial",
    "Rsh.C47_order_partial",
    "Rsh.C47_empty_partial",
    "Rsh.C47_crash",
    "Rsh.C47_crash_session"
   ],
   "note": "C47, as far as it holds: the text of the listing, if `PS4` could be read while it is made, is one line per job, and (at every prompt) in increasing order of ids. C47: the order of the listing is that of increasing ids. C47: without jobs, `jobs` prints nothing. C47 fails: as soon as there is any job, `jobs` crashes the shell instead of listing it. C47 fails at the prompt: start a job in the background, then list the jobs."
  },
  {
   "property": "C48",
   "status": "partial",
   "theorems": [
    "Rsh.C48_reap_partial",
    "Rsh.C48_single_partial",
    "Rsh.C48_crash_background",
    "Rsh.C48_crash_pipeline",
    "Rsh.C48_foreground_partial",
    "Rsh.C48_crash"
   ],
   "note": "C48, exactly: recording that the child `pid` has reported crashes the shell if and only if the shell, going through the jobs in order of their ids, comes to a job it looks at whose first process has not reported yet, before it comes past the job to which `pid` belongs. C48, as far as it holds: with a single unfinished job, recording that its first process has reported does not crash. C48 fails: with a background job running, any foreground command that terminates crashes the shell. C48 fails: in a pipeline the shell crashes if the second process terminates first. C48, for the wait for a foreground pipeline: when something is known of the first process of every other unfinished job and the first process of the pipeline is reported first, no report that follows crashes the shell, whatever it is about. C48 and C50 fail for every pipeline of several commands: the first report is about a process of the pipeline that is not the first one, and the shell crashes."
  },
  {
   "property": "C49",
   "status": "proved",
   "theorems": [
    "Rsh.C49_status"
   ],
   "note": "C49: an external command typed at the prompt while there is no job is waited for (interrupted waits are repeated); its exit status is recorded, the job table is empty again."
  },
  {
   "property": "C50",
   "status": "partial",
   "theorems": [
    "Rsh.C50_all_partial",
    "Rsh.C50_counterexample",
    "Rsh.C50_early"
   ],
   "note": "C50, as far as it holds: if the first process of a foreground pipeline exits first and the others have exited when the shell looks for them, the prompt appears only after all of them have been reported. C50 is false: when the first process has exited the shell prompts again, although the second one is still running and will never be waited for: its job is gone. If another one exits first the shell crashes. C50 fails for every pipeline: when its first process has exited and nothing else is reported, the prompt is back and the job forgotten, however many other processes it has."
  },
  {
   "property": "C51",
   "status": "partial",
   "theorems": [
    "Rsh.C51_noOther_partial",
    "Rsh.C51_counterexample",
    "Rsh.C51_other"
   ],
   "note": "C51, as far as it holds: while there is no other job, the report of a process that does not belong to the command run in the foreground does not bring back the prompt (it crashes the shell). C51 is false: `b` (pid 101) still runs when the shell, having been told that `a` has exited, prompts again. C51 fails for every command and every pipeline: when a process of a job started before is reported (and nothing else), the shell goes back to the prompt and forgets the pipeline it has just started, although nothing has been reported about it; the status is that of the command before."
  },
  {
   "property": "C52",
   "status": "partial",
   "theorems": [
    "Rsh.C52_noPid",
    "Rsh.C52_bg_partial",
    "Rsh.C52_fg_partial",
    "Rsh.C52_unknown",
    "Rsh.C52_counterexample",
    "Rsh.C52_fgExits_partial"
   ],
   "note": "C52 fails for a number that is no pid: a job is registered under the pid -1 before it has a process, and stays so; 4294967295 means -1. C52, `bg`: a job named by its id or by the pid of one of its processes gets one SIGCONT for each of its processes and no other process gets a signal; the job is running in the background, all other jobs are as before, and no signal is blocked. C52, `fg`: the job gets the same signals and is marked as running in the foreground, all other jobs being as before (`s1`); then the shell waits for it and does nothing else. C52: an argument that is a job id or pid of no job leaves all jobs as they are, sends no signal, and is reported. C52 fails when a process of the job is gone: the shell crashes. Here the job is `a | b`, stopped and then half dead. C52, `fg` of a job whose first process then exits: the shell returns to the prompt and the job is gone, also when another process of it has been stopped; the exit status is not recorded."
  },
  {
   "property": "C53",
   "status": "partial",
   "theorems": [
    "Rsh.C53_fgbg",
    "Rsh.C53_cd",
    "Rsh.C53_external_partial",
    "Rsh.C53_builtin",
    "Rsh.C53_counterexample"
   ],
   "note": "C53, `fg` and `bg`: if the prompt comes back, signals are let through again exactly if the argument designates a job. If it does not, nothing has happened but that this was reported. C53, `cd`: after it signals are let through again exactly if it could change the directory. C53, as far as it holds: if the last chain of a text consists of pipelines that begin with a program or a function, no signal is blocked after it, whatever is before. Not so after a builtin. **C53** fails for every builtin but `cd`, `fg`, `bg` and `exec`, and those that evaluate other commands: whatever its arguments, if the shell comes back to the prompt the signals are still blocked. C53 fails: after any builtin but `cd`, `fg` and `bg`, signals stay blocked at the prompt."
  },
  {
   "property": "C54",
   "status": "partial",
   "theorems": [
    "Rsh.C54_undisturbed_partial",
    "Rsh.C54_exact",
    "Rsh.C54_shielded",
    "Rsh.C54_deletes",
    "Rsh.C54_counterexample",
    "Rsh.C54_inevitable"
   ],
   "note": "**C54** (the part that holds): whatever jobs there are, whatever jobs are deleted one after the other and wherever signals arrive, the shell does not crash as long as the handler does not reap a child between the moment `delete_job` has borrowed the shell's data and its return. **C54** is false exactly there: if the handler does reap a child in between, the shell crashes, and nothing else crashes it. **C54**, the update proper: the handler never runs between the masking and the unmasking. **C54**: a run to the end that the handler never interrupts deletes those jobs. **C54 is false**: for every job table, every job and every child: a `SIGCHLD` that arrives during the deletion is delivered as soon as `delete_job` unmasks signals, which it does before it gives the shell's data back; if the handler finds that a child has ended, the shell crashes. **C54**: there is no way out: once the signal is pending when the deletion is done, `delete_job` only returns if the handler's `waitpid` has nothing to report."
  },
  {
   "property": "C55",
   "status": "proved",
   "theorems": [
    "Rsh.C55_terminated",
    "Rsh.C55_stopped",
    "Rsh.C55_others"
   ],
   "note": "C55: when the only process of a background job has terminated and SIGCHLD arrives at the prompt (not blocked, and its handler is installed), that job is removed and its process forgotten; all other jobs stay as they are. Nothing else happens. C55: when it has been stopped, the job is kept, marked as stopped; all other jobs stay as they are. Nothing else happens. C55, the rest of \"only that job\": a report about a foreground job (one that has stopped) or about a process of no job removes nothing. Of the job only the status of the process is noted."
  },
  {
   "property": "C56",
   "status": "proved",
   "theorems": [
    "Rsh.C56_install",
    "Rsh.C56_again"
   ],
   "note": "C56: after installing handlers for some signals, in any order and any number of times, each of them that was not ignored for good is handled as wanted; all other signals, and the signals ignored for good, are handled as before. C56: installing a handler again changes nothing."
  },
  {
   "property": "C57",
   "status": "proved",
   "theorems": [
    "Rsh.C57_chain",
    "Rsh.C57_determined",
    "Rsh.C57_programs"
   ],
   "note": "C57: a chain of `&&` and `||`, typed as a line, runs each pipeline after the first exactly if the status of what precedes it asks for that; its status is that of the last pipeline run; whatever ends otherwise than with a status ends the chain. The outcome of a chain is determined, and so are the pipelines that run. C57, for all programs: after `&&` a pipeline runs exactly if what precedes has the status 0, after `||` exactly if it has another; if what precedes does not end with a status, neither does the chain."
  },
  {
   "property": "C58",
   "status": "proved",
   "theorems": [
    "Rsh.C58_list",
    "Rsh.C58_lines",
    "Rsh.C58_programs"
   ],
   "note": "C58: the chains of a line run from left to right, each from the state left by the one before; the status is that of the last one. (A chain that ends otherwise than with a status ends the line; for failing builtins see C59.) C58: `a ; b` on one line is `a` and then `b` on the next line. C58, for all programs: a list does what its first command does, and then, if that has a status, what the rest does; the status of the first is not passed on."
  },
  {
   "property": "C59",
   "status": "partial",
   "theorems": [
    "Rsh.C59_stops",
    "Rsh.C59_goesOn_partial",
    "Rsh.C59_counterexample"
   ],
   "note": "C59 fails: what follows a failing builtin on the line does not run, and `||` does not see it. C59, as far as it holds: a failing builtin, typed as the last command of a line or alone, prints its message and the shell goes on. C59 fails: neither `;` nor `||` goes on after `cd /nope`."
  },
  {
   "property": "C60",
   "status": "partial",
   "theorems": [
    "Rsh.C60_runs_partial",
    "Rsh.C60_counterexample"
   ],
   "note": "C60, as far as it holds: `! p` runs `p`, with the same effects. But the status is also the same: the exclamation mark has no effect at all. C60 fails: `! a` fails when `a` fails, and `! a && b` runs `b` when `a` succeeds."
  },
  {
   "property": "C61",
   "status": "proved",
   "theorems": [
    "Rsh.C61_plumbed"
   ],
   "note": "C61: typing a pipeline of external commands starts one program for each, in order, and nothing else; they are connected as they should be."
  },
  {
   "property": "C62",
   "status": "proved",
   "theorems": [
    "Rsh.C62_restored",
    "Rsh.C62_restoredError",
    "Rsh.C62_prompt",
    "Rsh.C62_noFailure"
   ],
   "note": "C62: whatever is evaluated, the shell has afterwards the descriptors it had before. C62: the same if the evaluation reports an error. C62: at every prompt of a session the shell has its three standard descriptors and no other. C62: no `close` or `dup2` fails (a failed one ends the process it happens in): whatever other descriptors the shell has open, all commands of a pipeline become programs."
  },
  {
   "property": "C63",
   "status": "partial",
   "theorems": [
    "Rsh.C63_external_partial",
    "Rsh.C63_counterexample",
    "Rsh.C63_ignored"
   ],
   "note": "C63, as far as it holds: every command of a pipeline of external commands is executed. C63 is false: the commands after a builtin are not executed, nor is a builtin's output passed on. C63 fails wherever a command that is not a process of its own is not the last of its pipeline: the commands after it make no difference at all, for all pipelines of all programs."
  },
  {
   "property": "C64",
   "status": "partial",
   "theorems": [
    "Rsh.C64_first_partial",
    "Rsh.C64_counterexample",
    "Rsh.C64_anyJobs_partial"
   ],
   "note": "C64, as far as it holds: a foreground pipeline has the exit status of its first command; so it has that of its last command if it consists of one command. C64 is false: if `a` (pid 100) fails and `b` (pid 101) succeeds, `a | b` has failed. C64, whatever other jobs there are and whatever is reported after the first process has exited: the status is that of the first command, and the job is forgotten, whether the others have ended, been stopped or still run."
  },
  {
   "property": "C65",
   "status": "proved",
   "theorems": [
    "Rsh.C65_background"
   ],
   "note": "C65: a pipeline in the background is started, nothing is waited for, and it is in the job table as a background job; the shell takes it for one from then on, and the jobs before as it did."
  },
  {
   "property": "C66",
   "status": "partial",
   "theorems": [
    "Rsh.C66_runs_partial",
    "Rsh.C66_counterexample"
   ],
   "note": "C66, as far as it holds: `! p &` runs `p`. But it is evaluated like `p` without `&`, in the foreground. C66 fails: `! a &` waits for `a`."
  },
  {
   "property": "C67",
   "status": "partial",
   "theorems": [
    "Rsh.C67_zero",
    "Rsh.C67_success_partial",
    "Rsh.C67_counterexample"
   ],
   "note": "C67 fails in general: whatever the body of a function does, the status of a call that returns is 0. C67, as far as it holds: a call whose arguments can be bound runs its body, as a list of commands, in the state it enters; if the status of the last command there is 0, then that is the status of the call. C67 fails: the status of a failing last command, and the argument of `return`, are lost."
  },
  {
   "property": "C68",
   "status": "partial",
   "theorems": [
    "Rsh.C68_skips_partial",
    "Rsh.C68_continues",
    "Rsh.C68_counterexample"
   ],
   "note": "C68, as far as it holds: nothing after `return` runs in its own pipeline, and none of the pipelines joined to it by `||`. C68 fails in general: what follows `return` after a semicolon runs as if it were alone. C68 fails: commands after `return` run, in a function and outside."
  },
  {
   "property": "C69",
   "status": "partial",
   "theorems": [
    "Rsh.C69_exact",
    "Rsh.C69_redirections_partial",
    "Rsh.C69_counterexample"
   ],
   "note": "What the code does with every redirection, whatever number is written before it and however the name of the file is quoted: the files are opened in the order written, each under the text as typed, quotes and variables included, and the descriptor is the one of the operator. C69, the part that holds: at every prompt, for a command with any redirections `<`, `>` and `>>` in any places, the files are opened in the order written, and each descriptor of the program is the last one its redirections ask for, or the shell's own if there is none. Missing: a number before the operator that asks for another descriptor and a quoted file name (`C69_exact`, `C69_counterexample`), redirections after the name of a command without arguments (`C70_lost`); for files that cannot be opened see C93. C69 fails: the number before the operator is not used (`2>` redirects descriptor 1), and the quotes of a quoted file name are taken for a part of it."
  },
  {
   "property": "C70",
   "status": "partial",
   "theorems": [
    "Rsh.C70_applied_partial",
    "Rsh.C70_lost",
    "Rsh.C70_counterexample"
   ],
   "note": "C70, the part that holds: if the command has an argument, or all redirections come before the name, then each of them is opened when the command starts, and the last one of a descriptor is what the program finds there. Missing: redirections after the name of a command without arguments, and those of builtins (`C70_lost`, `C70_counterexample`). C70 fails for every command without arguments: no redirection written after its name is opened, and the program has the descriptors it would have without them. C70 fails: `ls > f` and `pwd > f` write to the terminal."
  },
  {
   "property": "C71",
   "status": "partial",
   "theorems": [
    "Rsh.C71_overwrites",
    "Rsh.C71_exactly_when",
    "Rsh.C71_output_partial",
    "Rsh.C71_counterexample"
   ],
   "note": "What `>` does to a file: the output replaces the beginning of the old content, the rest stays. C71 fails exactly when the file was longer than what the command writes. C71, the part that holds: the standard output of a command whose last output redirection is `> f` is the file `f`, and if `f` did not exist or was not longer than the output, it then contains exactly what the command wrote. Missing: a longer file is not truncated (`C71_exactly_when`), and what is missing in C69 and C70. C71 fails: the end of a longer file stays."
  },
  {
   "property": "C72",
   "status": "partial",
   "theorems": [
    "Rsh.C72_appends",
    "Rsh.C72_append_partial",
    "Rsh.C72_counterexample"
   ],
   "note": "C72: `>>` adds the output, in whatever pieces it is written, to the end of the file. C72 for a command line: the standard output of a command whose last output redirection is `>> f` is the file `f`, and it then contains its previous content followed by what the command wrote. Missing: what is missing in C69 and C70. C72 fails for a command without arguments."
  },
  {
   "property": "C73",
   "status": "partial",
   "theorems": [
    "Rsh.C73_search",
    "Rsh.C73_found_partial",
    "Rsh.C73_missing_partial",
    "Rsh.C73_counterexample"
   ],
   "note": "C73 at the level of the search: with `PATH` set in the outermost context, a name is resolved to `file` exactly when `file` is the file of that name in the first directory of `PATH` that has one, and to nothing exactly when no directory has one; the search changes nothing. C73, the part that holds: at every prompt, a line with an external command runs the file of that name in the first directory of the outermost context's `PATH` that has one. Missing: that `PATH` is the value `$PATH` has, see the counterexample. C73, the other half: if no directory of `PATH` has the file, nothing is executed, and the child reports that on the shell's standard error. C73 fails when `PATH` has been unset: a `PATH` assigned afterwards is not used, and every external command crashes its child."
  },
  {
   "property": "C74",
   "status": "partial",
   "theorems": [
    "Rsh.C74_counterexample",
    "Rsh.C74_never",
    "Rsh.C74_emptyEntry_partial"
   ],
   "note": "C74 fails: a name with a slash is looked for in the directories of `PATH` like any other, and a program given as `/bin/ls` is the file `/bin//bin/ls`. C74 fails for all names and all values of `PATH`: the file found never is the name that was given, but a longer one that begins with a directory of `PATH`. C74, the part that holds: an absolute name is run directly, with a second slash in front, if `PATH` has an empty entry and no earlier entry has a file of that name. Missing: everything else, by `C74_never`."
  },
  {
   "property": "C75",
   "status": "proved",
   "theorems": [
    "Rsh.C75_exit"
   ],
   "note": "C75: a line that begins with `exit` ends the shell, with the given status or that of the last command; nothing else of the line is run and the history is saved, or a message says that this is not possible."
  },
  {
   "property": "C76",
   "status": "partial",
   "theorems": [
    "Rsh.C76_exact",
    "Rsh.C76_prefix_partial",
    "Rsh.C76_counterexample"
   ],
   "note": "What the code does with every assignment before an external command: the program's environment has the text as typed, quotes included, up to its first `=`. C76, the part that holds: assignments of ordinary words before an external command, in any number, are in the environment of the program (the last one of each name), everything else there is the shell's environment; and the line changes no variable, function, alias or environment variable of the shell. Missing: quoted values (`C76_exact`, `C76_counterexample`). C76 fails for quoted values: the quotes are a part of the value, and it ends at the first `=`."
  },
  {
   "property": "C77",
   "status": "partial",
   "theorems": [
    "Rsh.C77_counterexample",
    "Rsh.C77_onlyFirst",
    "Rsh.C77_single_partial"
   ],
   "note": "C77 fails: of several assignments only the first is performed. What a line of assignments does: the first is performed, the others are not. C77, as far as it holds: a single assignment is performed. (What is missing: all but the first of several, see above; values with `=`, outer quotes in the middle and the like are the subject of other properties.)"
  },
  {
   "property": "C78",
   "status": "partial",
   "theorems": [
    "Rsh.C78_counterexample",
    "Rsh.C78_counterexample_lists",
    "Rsh.C78_copes_partial",
    "Rsh.C78_exact_partial",
    "Rsh.C78_fg",
    "Rsh.C78_export",
    "Rsh.C78_eval",
    "Rsh.C78_source"
   ],
   "note": "C78 fails: these lines end the shell. C78 fails: listing the jobs ends the shell if there are any, and so does listing a read-only variable. C78, as far as it holds: with arguments it can cope with, a builtin typed at the prompt works, ends the shell as asked, or its error is reported. (What is missing: the arguments above, and `fg`, `bg`, `eval`, `source` and `readonly` with arguments.) C78, exactly: a builtin typed at the prompt crashes the shell with the arguments of `Crashes`, and with no others: then it works or its error is reported, and the shell goes on, unless it is `exit` or `exec`. (What is missing here: `eval` and `source`, see `C78_eval` and `C78_source`, and the calls of `fg` and `export` that `Decided` leaves out, see `C78_fg` and `C78_export`.) C78, `fg` of a job that is there: the shell crashes exactly if one of the reports that are there to be collected cannot be recorded; otherwise it is back at the prompt after them, or it waits for ever if no report ever comes. C78, `export` with several words: the shell crashes exactly if it does when they are typed in lines of their own, at one of these lines; otherwise the shell goes on. C78, `eval`: it crashes the shell exactly if it has no argument, or if its first argument, typed as a line, does. C78, `source` and `.` with one argument: they crash the shell exactly if the argument is to be looked for in `PATH` and there is none, or the file is no text, or its text, typed as a line, crashes the shell."
  },
  {
   "property": "C79",
   "status": "partial",
   "theorems": [
    "Rsh.C79_one_partial",
    "Rsh.C79_ignored",
    "Rsh.C79_counterexample"
   ],
   "note": "C79, as far as it holds: `eval` with one argument evaluates that text (as a line) in the current shell. (What is missing: any further argument is ignored, see below.) The arguments of `eval` after the first make no difference. C79 fails: `eval ls -l` runs `ls`."
  },
  {
   "property": "C80",
   "status": "partial",
   "theorems": [
    "Rsh.C80_source_partial",
    "Rsh.C80_missing",
    "Rsh.C80_counterexample"
   ],
   "note": "C80, as far as it holds: `source` evaluates the text of the file, as a line, in the current shell, in which its other arguments are `$1`, `$2`, … and everything else is as before. (What is missing: arguments the shell cannot bind, and files that are no text; see below.) C80: a missing file is reported and nothing is run. C80 fails: a file that is no text, or an argument with many digits, ends the shell."
  },
  {
   "property": "C81",
   "status": "partial",
   "theorems": [
    "Rsh.C81_exec_partial",
    "Rsh.C81_counterexample",
    "Rsh.C81_all"
   ],
   "note": "C81, as far as it holds: `exec`, with its options in one word (as `-cl`, `-a name` or `-cla name`) or in two, replaces the shell by the program of that name in `PATH`, with the arguments, environment and open descriptors asked for. (What is missing: commands with certain letters, options in three words, and `-al`, see below; paths with `/` are searched for in `PATH`, see C74.) C81 fails: options in two words are misread (here `cat` is taken for the option `a`, and `-c` for the name), and so is a command with a dash in its name. C81, for all words: what `exec` does with any arguments at any prompt."
  },
  {
   "property": "C82",
   "status": "partial",
   "theorems": [
    "Rsh.C82_never",
    "Rsh.C82_exit_partial"
   ],
   "note": "C82 fails for every script: if all lines parse and evaluating them leaves the shell in `s1`, then the shell does not end there. It reads further, empty, lines, each of which it evaluates to nothing, and after any number `k` of them it is still running. C82, the part that holds: a script ends where a line ends the shell, with the status that line gives; the lines after it are not looked at. Missing: all other scripts, by `C82_never`."
  },
  {
   "property": "C83",
   "status": "partial",
   "theorems": [
    "Rsh.C83_program_partial",
    "Rsh.C83_script_partial",
    "Rsh.C83_interactive",
    "Rsh.C83_counterexample"
   ],
   "note": "C83, a program: with `-c` (alone or among other option letters), the words after the option joined by blanks are evaluated, after the start-up files; the shell does not become interactive. Missing in C83: see below. C83, a script: the first argument that is no option is the script and `$0`; the arguments after it, options or not, are `$1`, `$2`, …. After the start-up files the lines of that file are evaluated. Missing: empty arguments and those the shell cannot bind (see the counterexamples). C83, neither: with options without a `c` only, or without arguments, the shell is interactive. C83 fails: an empty argument, wherever it is, ends the shell with a panic, and so does a parameter of 20 digits."
  },
  {
   "property": "C84",
   "status": "partial",
   "theorems": [
    "Rsh.C84_complete_partial",
    "Rsh.C84_crash",
    "Rsh.C84_counterexample"
   ],
   "note": "C84, the part that holds: if the shell's environment has `PATH`, and all entries of its directories have names that are texts, completion of a line replaces it from its beginning by one of a strictly increasing list of names, which are exactly the names beginning with the line in the readable directories of that `PATH`. Missing: that this is the shell variable `PATH`, an environment without it, and entries of other names (see the counterexample and `C84_crash`). C84, exactly when it fails with a crash: the environment has no `PATH`, or a readable directory of it has an entry whose name is no text, whatever has been typed. C84 fails: completion asks the environment of the shell, not the variable `PATH`; it crashes if the environment does not have it, and if a directory has an entry whose name is no text."
  },
  {
   "property": "C85",
   "status": "proved",
   "theorems": [
    "Rsh.C85_substitution",
    "Rsh.C85_process",
    "Rsh.C85_external"
   ],
   "note": "C85: however it ends, a command substitution changes nothing of the shell that started it. C85: however it ends, a pipeline whose commands run in processes of their own (none is a builtin, and it runs in the background, where functions run in processes of their own, too, or there are no functions) changes nothing of the shell. C85: a line with one pipeline of external commands changes nothing of the shell."
  },
  {
   "property": "C86",
   "status": "partial",
   "theorems": [
    "Rsh.C86_end",
    "Rsh.C86_session_partial",
    "Rsh.C86_composed",
    "Rsh.C86_survives_partial",
    "Rsh.C86_builtins_partial",
    "Rsh.C86_foreground_partial",
    "Rsh.C86_counterexample"
   ],
   "note": "The session after the last input. **C86**: a session goes through its inputs one by one; each leads back to the prompt, unless it is one that ends the shell for good, and an error is never one that does. (What is missing: that only `exit` and `exec` end the shell, which is false.) A line that is not the end of the shell for good when each of its pipelines, typed alone, is not. **C86**, for single lines: lines the shell copes with lead back to the prompt. **C86**, for builtins: every builtin that `C78_exact_partial` decides, with any arguments that do not crash it, leads back to the prompt, unless it is `exit` or `exec`. (`s1` is the state after the prompt has been shown.) **C86**, for foreground pipelines: if its processes exit, the prompt comes back. **C86** is false as stated: `cd` without a directory ends the shell, and so does the prompt after `unset PS1`."
  },
  {
   "property": "C87",
   "status": "partial",
   "theorems": [
    "Rsh.C87_undisturbed_partial",
    "Rsh.C87_exact",
    "Rsh.C87_reads_partial",
    "Rsh.C87_readers_partial",
    "Rsh.C87_when",
    "Rsh.C87_shielded",
    "Rsh.C87_counterexample",
    "Rsh.C87_counterexample_read"
   ],
   "note": "**C87** (the part that holds): a program that accesses the shell's data in any order is not crashed by signals as long as no child is reaped during an access. **C87**: for programs that change the data this is exact: reaping a child during an access is a crash. **C87**: reading is safe whatever the handler reaps, unless it removes a job. **C87**: a program that only reads never has the data to itself, and is not crashed by signals, whatever children end and whenever they do, if there are no background jobs. **C87**, exactly: a program that accesses the shell's data in any order is crashed by signals if and only if what was done breaks the rules for shared data. **C87**: an access between `interrupts_off` and `interrupts_on` is not interrupted by the end of a child (unless the interrupt key is pressed: C143). **C87 is false**: whatever child ends while the shell changes a variable or an alias, if the handler reaps it the shell crashes. **C87 is false** even for reading: the end of a background job while the shell looks something up."
  },
  {
   "property": "C88",
   "status": "partial",
   "theorems": [
    "Rsh.C88_interrupt_partial",
    "Rsh.C88_stop",
    "Rsh.C88_ended",
    "Rsh.C88_counterexample"
   ],
   "note": "C88: a SIGINT that reaches the shell at the prompt writes a newline and has no other effect, provided the handler is there and the terminal can be written to. C88: a SIGTSTP has no effect, nor has any other signal that does not end a process without a handler. C88 is false: the shell does not ignore SIGQUIT and SIGTERM, although it is written to (`C56_install`); every signal it has no handler for and whose default is to end a process ends the shell, unless it is blocked. The history is not saved. C88 is false: SIGINT ends the shell if the handlers are gone, and makes it panic if its standard input cannot be written to."
  },
  {
   "property": "C89",
   "status": "partial",
   "theorems": [
    "Rsh.C89_handlers_partial",
    "Rsh.C89_counterexample"
   ],
   "note": "C89: at every prompt the shell has the handlers it set up when it started, or none at all; it never has some of them only and never any other. C89 is false: an `exec` that fails takes the handlers away, for the rest of the session."
  },
  {
   "property": "C90",
   "status": "partial",
   "theorems": [
    "Rsh.C90_fresh_partial",
    "Rsh.C90_sigpipe",
    "Rsh.C90_every_partial",
    "Rsh.C90_sigpipe_every"
   ],
   "note": "C90: the programs of a pipeline typed at the prompt are started in the working directory of the shell, with its environment, with no signal blocked and with the default reaction to every signal but SIGPIPE. C90 is false: all of them ignore SIGPIPE, so that a program that writes to a pipe nobody reads is not ended by it. C90, for every program of every run (interactive, of a script or of `rsh -c`): it starts with no signal blocked and with the default reaction to every signal but SIGPIPE. Missing: SIGPIPE. C90 is false for every program of every run: it ignores SIGPIPE."
  },
  {
   "property": "C91",
   "status": "partial",
   "theorems": [
    "Rsh.C91_group_partial",
    "Rsh.C91_separate"
   ],
   "note": "C91: the programs of a background pipeline leave the shell's process group, those of a foreground pipeline stay in it. C91 is false: the programs of a background pipeline are not in one process group, but each in its own."
  },
  {
   "property": "C92",
   "status": "partial",
   "theorems": [
    "Rsh.C92_cd_partial",
    "Rsh.C92_cdFails",
    "Rsh.C92_pwd",
    "Rsh.C92_variable"
   ],
   "note": "C92: `cd DIR` makes the directory the operating system finds under that name the working directory, and changes nothing else (but see `C92_variable`). C92: if there is no such directory, `cd` reports that and the working directory stays what it was. C92: `pwd` writes the working directory. C92 is false in that `cd` changes no variable, so that `PWD` is not the working directory afterwards."
  },
  {
   "property": "C93",
   "status": "partial",
   "theorems": [
    "Rsh.C93_notRun_partial",
    "Rsh.C93_counterexample"
   ],
   "note": "C93, the part that holds: at every prompt, for every command with redirections, whichever of its files cannot be opened: the child opens the files written before the first of those in order, reports the failure on the shell's standard error and ends; no program is run. Missing: redirections after the name of a command without arguments (`C93_counterexample`). C93 fails: in `ls < /nope` the redirection is lost and the program runs."
  },
  {
   "property": "C94",
   "status": "partial",
   "theorems": [
    "Rsh.C94_ignored",
    "Rsh.C94_restored_partial",
    "Rsh.C94_counterexample"
   ],
   "note": "Redirections and assignments around a builtin change nothing: the line behaves exactly as the builtin with its arguments alone, from every state of the shell. C94, the part that holds: after a builtin with redirections and assignments, the descriptors and the variables of the shell are what they are after the builtin alone. Missing: the output does not go to the file (`C94_ignored`, `C94_counterexample`). C94 fails: the file is not even opened, and a redirection that must fail does not stop the builtin."
  },
  {
   "property": "C95",
   "status": "partial",
   "theorems": [
    "Rsh.C95_returns_partial",
    "Rsh.C95_status",
    "Rsh.C95_counterexample",
    "Rsh.C95_anyJobs_partial"
   ],
   "note": "C95, the part that holds: when the program of a line is killed by a signal, the shell learns of it, goes back to the prompt with signals unblocked, and the job is gone. Missing: the status (`C95_status`). Other jobs at the same time and pipelines: `C95_anyJobs_partial`. C95 fails for every such line: the status, as `&&`, `||` and `$?` see it, is that of the command before. C95 fails: in `ls && ls x` the second command runs although the first was killed. C95, the part that holds, for pipelines and whatever other jobs there are: when the first program is killed by a signal (and whatever is reported afterwards), the shell goes back to the prompt with signals unblocked, and the job is gone. Missing: the status is that of the command before."
  },
  {
   "property": "C96",
   "status": "partial",
   "theorems": [
    "Rsh.C96_stopped_partial",
    "Rsh.C96_anyJobs_partial",
    "Rsh.C96_counterexample",
    "Rsh.C96_fg_partial"
   ],
   "note": "C96, for one command: when the program of a line is stopped by a signal, the shell goes back to the prompt with signals unblocked; the job stays in the table, as a stopped one with the number it had, and is the current one, so that `fg` continues it. Other jobs at the same time and pipelines: `C96_anyJobs_partial`. C96, for pipelines and whatever other jobs there are: when the first program is stopped by a signal (and whatever is reported afterwards about other processes), the shell goes back to the prompt with signals unblocked and keeps the job with its number and processes, as a stopped one; if nothing is reported about other jobs, it is the current one, and the other jobs are what they were. C96 fails: with a background job of which nothing is known, or when the second command of a pipeline is stopped, the shell crashes. C96, for `fg`: a job all of whose processes have been reported (as those of a stopped one have) is continued and its first process is stopped again: the job stays in the table as a stopped one with its number, it is the current one whichever was, and the other jobs are what they were."
  },
  {
   "property": "C97",
   "status": "partial",
   "theorems": [
    "Rsh.C97_builtin_partial",
    "Rsh.C97_refused",
    "Rsh.C97_program",
    "Rsh.C97_counterexample"
   ],
   "note": "C97, the part that holds: an alias that has the name of a builtin and stands for a builtin with some arguments is that builtin; its arguments follow those typed (see C23). Missing: every other alias for a builtin (`C97_program`), and every other alias with the name of a builtin (`C97_refused`). C97 fails for every alias that has the name of a builtin and stands for no builtin: nothing is run but an error message printed. C97 fails for every alias, not with the name of a builtin, that stands for a builtin: a program of that name is looked for and run. C97 fails: after `alias p=pwd`, `p` runs a program `pwd`."
  },
  {
   "property": "C98",
   "status": "partial",
   "theorems": [
    "Rsh.C98_exit_partial",
    "Rsh.C98_zero",
    "Rsh.C98_counterexample"
   ],
   "note": "C98, the part that holds: if the text given with `-c` ends with `exit` or by replacing the shell, so does the shell. Missing: every other text (`C98_zero`). C98 fails for every text that does not end the shell: whatever its status, or an error, the shell ends regularly, with code 0. C98 fails: `rsh -c ls`, with `ls` exiting with 3."
  },
  {
   "property": "C99",
   "status": "proved",
   "theorems": [
    "Rsh.C99_layout",
    "Rsh.C99_white"
   ],
   "note": "C99: a line has the same effect with any blanks before its words and operators, or none where the two do not fuse, and with any blanks, a comment and a newline at its end: from every state of the shell, at the prompt, in a script, in a start-up file and in the text given with `-c`. C99: white space is that of Unicode, 25 characters."
  },
  {
   "property": "C100",
   "status": "proved",
   "theorems": [
    "Rsh.C100_blank",
    "Rsh.C100_comment"
   ],
   "note": "C100: a line of blanks and comments does nothing: from every state, in every place. C100: so does a line that is all comment."
  },
  {
   "property": "C101",
   "status": "proved",
   "theorems": [
    "Rsh.C101_line",
    "Rsh.C101_run"
   ],
   "note": "C101: what a line does, at the prompt, in a script, in a start-up file and after `-c`, does not depend on the room there is for nested evaluation, as long as there is enough: with more room it has the same outcome and leaves the same state, with the same events. C101 for a whole run of the shell, from its arguments to its end."
  },
  {
   "property": "C102",
   "status": "proved",
   "theorems": [
    "Rsh.C102_recursion"
   ],
   "note": "C102: calling a function that begins by calling itself, directly or through others, never ends: whatever room there is for nested evaluation, it is used up."
  },
  {
   "property": "C103",
   "status": "proved",
   "theorems": [
    "Rsh.C103_variables",
    "Rsh.C103_inherited"
   ],
   "note": "C103: when the shell starts, its variables are those of its environment, with the values they have there, and for names that are not in the environment seven defaults; all of them can be assigned. C103: each variable of the environment the shell was started with is in the environment of every program it starts; only `exec -c` starts a program without it, whose environment is empty."
  },
  {
   "property": "C104",
   "status": "proved",
   "theorems": [
    "Rsh.C104_wellformed"
   ],
   "note": "C104: every program is started with at least one argument, and neither in its path nor in its arguments nor in its environment is there anything that the kernel could not pass on."
  },
  {
   "property": "C105",
   "status": "partial",
   "theorems": [
    "Rsh.C105_unchanged",
    "Rsh.C105_counterexample"
   ],
   "note": "The code violates it: C105_unchanged proves that fg never changes the exit status, whatever is reported, so the property holds only when the job's status happens to be the old one; C105_counterexample is a session where && goes on after a failed job."
  },
  {
   "property": "C106",
   "status": "partial",
   "theorems": [
    "Rsh.C106_ops_partial",
    "Rsh.C106_bgUnknown",
    "Rsh.C106_fgStale"
   ],
   "note": "C106, the part that holds: whatever operations are performed on the job table, in whatever order, as long as none continues a stopped job, the shell takes for background jobs exactly the jobs in the table that were created as such. Missing: jobs continued by `fg` and `bg` (see the counterexamples). C106 fails: a command is stopped and continued by `bg`; it runs in the background and is not taken for a background job. C106 fails: a background job is continued by `fg` and exits; there is no job left, and job 1 is still taken for a background job, also when a new command in the foreground gets that number."
  },
  {
   "property": "C107",
   "status": "partial",
   "theorems": [
    "Rsh.C107_inverted",
    "Rsh.C107_counterexample"
   ],
   "note": "The code violates it in every state: C107_inverted proves that the answer is always the opposite of what the noted background jobs say; C107_counterexample gives two concrete states."
  },
  {
   "property": "C108",
   "status": "proved",
   "theorems": [
    "Rsh.C108_told",
    "Rsh.C108_command"
   ],
   "note": "C108, for pipelines and any other jobs: during the wait exactly the lines of `Told` are written, one for each process of the pipeline that is reported as killed or stopped, in the order of the reports. C108: a command that is killed or stopped by a signal is announced by one line on the standard output: the number of the job, the prompt PS4, what became of it, its name, and the signal; when it exits nothing is written. Whatever other jobs there are and are reported about."
  },
  {
   "property": "C109",
   "status": "proved",
   "theorems": [
    "Rsh.C109_announced"
   ],
   "note": "C109: a pipeline started in the background is announced by one line on the standard output: the number of the job, the pid of its first process, and the names of its commands."
  },
  {
   "property": "C110",
   "status": "proved",
   "theorems": [
    "Rsh.C110_exact",
    "Rsh.C110_environment"
   ],
   "note": "C110: whatever operations are performed on a new store, either all of them are possible and the value of every variable is the one they give it, or one of them is not, and then the store crashes. (For an environment that has no name twice.) C110: and the environment of the process afterwards agrees with it."
  },
  {
   "property": "C111",
   "status": "partial",
   "theorems": [
    "Rsh.C111_innermost_partial",
    "Rsh.C111_hidden",
    "Rsh.C111_counterexample"
   ],
   "note": "C111, as far as it holds: a variable set at the innermost level has that value, if there is no global variable of that name. (What is missing is the very case of a global variable with the same name; see below.) C111 fails whenever there is a global variable of that name: it hides the local one. C111 fails."
  },
  {
   "property": "C112",
   "status": "proved",
   "theorems": [
    "Rsh.C112_restored"
   ],
   "note": "C112: what is set at a level is gone when the level ends: after it every variable has the value it had before."
  },
  {
   "property": "C113",
   "status": "proved",
   "theorems": [
    "Rsh.C113_first",
    "Rsh.C113_path"
   ],
   "note": "C113: the program found for a command is that of the first directory of PATH that has a regular file of that name; none is found exactly if no directory has one. C113: in every store there is a PATH, so looking for a command never crashes."
  },
  {
   "property": "C114",
   "status": "partial",
   "theorems": [
    "Rsh.C114_pair_partial",
    "Rsh.C114_set_partial",
    "Rsh.C114_counterexample"
   ],
   "note": "C114, as far as it holds: after a positional parameter is set by its number, however written, its value is found under that number. C114, as far as it holds: the same for a text `number=value`, if there is no digit in the value. C114 fails: `1=23` sets the parameter 123."
  },
  {
   "property": "C115",
   "status": "proved",
   "theorems": [
    "Rsh.C115_export",
    "Rsh.C115_default",
    "Rsh.C115_home",
    "Rsh.C115_history",
    "Rsh.C115_update"
   ],
   "note": "C115: exporting gives every important variable its value in the environment and keeps the others; after the path has been set, PATH is the text that was given. C115: the defaults, with the same path as a new store. C115: the other defaults: the home directory is that of the environment, or `/root` if it has none; the directory is the current one; everything else in the environment stays. C115: setting the history file is the only thing that changes what is saved. C115: the path can be updated by its value, by `PATH=value`, whatever comes before the sign, or by a pair, and nothing else is changed; with the character NUL in the value the shell crashes."
  },
  {
   "property": "C116",
   "status": "partial",
   "theorems": [
    "Rsh.C116_literal",
    "Rsh.C116_counterexample"
   ],
   "note": "The code violates it: C116_literal proves that at every prompt such an argument arrives at the program as typed and nothing is run; C116_counterexample is a concrete session."
  },
  {
   "property": "C117",
   "status": "proved",
   "theorems": [
    "Rsh.C117_prompt",
    "Rsh.C117_end"
   ],
   "note": "**C117**: before every input the shell shows the value `PS1` has at that moment on its standard output; an interrupt only leads to the next prompt; at the end of the input, and after an error of the line editor, which is reported, the shell writes its history to `history.txt`, or says that it cannot, and ends. **C117** for whole sessions: when the inputs `ins` have led back to a prompt, and then the input ends, the shell shows `PS1` once more, writes its history, and `main` returns."
  },
  {
   "property": "C118",
   "status": "partial",
   "theorems": [
    "Rsh.C118_functions_partial",
    "Rsh.C118_lost"
   ],
   "note": "C118, as far as it holds: after any sequence of operations on a new context, a function that is not read-only is found with the body it was given last, one that was never defined or was removed is not found, and an attempt to define a function is refused exactly when it is read-only. (What is missing: a read-only function is found.) C118 fails, always: a function that is made read-only cannot be found any more."
  },
  {
   "property": "C119",
   "status": "proved",
   "theorems": [
    "Rsh.C119_children",
    "Rsh.C119_session"
   ],
   "note": "C119: in every run of the shell (interactive, of a script or of `rsh -c`), no process it forks, for a member of a pipeline or for a substitution, and down to the children of children, comes to the end of its code: each turns into a program, exits, crashes, or never ends. C119, from any moment of a session on, whatever state the shell is in."
  },
  {
   "property": "C120",
   "status": "partial",
   "theorems": [
    "Rsh.C120_any",
    "Rsh.C120_error",
    "Rsh.C120_file_partial",
    "Rsh.C120_counterexample",
    "Rsh.C120_name",
    "Rsh.C120_self"
   ],
   "note": "C120, for every file: `export context ns=file` reads the file; if that fails or it does not parse, a message is all; otherwise it is evaluated in a new context. C120 fails: after an error in the file its context is not dropped; the variables of the file stay with the shell. C120, as far as it holds: `export context ns=file`, typed at a prompt, where the file has one or more assignments, in any layout, to variables the shell does not have: afterwards `ns::x` is the value the file gave to `x`, and unset if it gave none; no other variable, of the shell or of another namespace, has changed, and nothing else but that the file was read. Missing: variables the shell has (see below), and other commands in the file. C120 fails: a variable the shell has is changed by the file, and is not in the namespace. C120: `export context name` does the same for every name: it takes the file `context` as the namespace `context`, and the name is not used. C120: `export context self`, where the current context has `$0`, does what `export context name=self` does for that name; where it has none, the shell crashes."
  },
  {
   "property": "C121",
   "status": "partial",
   "theorems": [
    "Rsh.C121_known_partial",
    "Rsh.C121_any",
    "Rsh.C121_counterexample"
   ],
   "note": "C121, where creating processes and pipes never fails: in every run of the shell, `fg` and `bg` and whatever else the shell or a forked copy of it does send signals to no process but those that it, or the shell it is a copy of, has started before. C121, without that assumption: the only other addressee is `-1`, which stands for all processes. C121 fails when the process for a background command cannot be created: the command is a job all the same, and `bg` of it sends the signal to every process there is."
  },
  {
   "property": "C122",
   "status": "proved",
   "theorems": [
    "Rsh.C122_print",
    "Rsh.C122_injective",
    "Rsh.C122_tree",
    "Rsh.C122_words",
    "Rsh.C122_exclusive",
    "Rsh.C122_effect"
   ],
   "note": "C122: whatever tree of a program is written out, with groups in functions in pipelines to any depth, reading the text gives that tree. C122: two programs with the same text are the same. C122: every text that is accepted, and in which no quotation or substitution is left open, has the tree of a program; and so written out it is read as the same program. C122: the words found in a text are whole words, with one exception: a quotation or substitution without end, which is the end of the text. The two are different things. C122: at the prompt, in a script or on standard input the text written out does what the original does."
  },
  {
   "property": "C123",
   "status": "proved",
   "theorems": [
    "Rsh.C123_define",
    "Rsh.C123_call"
   ],
   "note": "C123: defining a function, whatever its body, does nothing but giving it the body: no command is run and nothing is printed, nothing is read and no other function and no variable changes. C123: a call of a function does what its body does as a program, in a new context in which `$0`, `$1`, … are the words of the call and all else is as before. Unless the body ends the shell, the context is then dropped, the status is 0 and a job number is used up."
  },
  {
   "property": "C124",
   "status": "partial",
   "theorems": [
    "Rsh.C124_refused",
    "Rsh.C124_counterexample"
   ],
   "note": "The code violates it always: C124_refused proves that at every prompt a pipeline with a group first is reported as not implemented and neither it nor what follows in the list is run, whatever the group contains; C124_counterexample has concrete sessions."
  },
  {
   "property": "C125",
   "status": "proved",
   "theorems": [
    "Rsh.C125_reported"
   ],
   "note": "C125: a builtin called the wrong way prints what is wrong on its standard output, and does nothing."
  },
  {
   "property": "C126",
   "status": "proved",
   "theorems": [
    "Rsh.C126_wholes",
    "Rsh.C126_returns"
   ],
   "note": "C126: whatever jobs there are, whatever a program does with the shell's data and wherever signals arrive: if the shell comes to the end of the program, the job table is as if every access of the program and every run of the handler that took a report had happened as a whole, one after the other, in the order of the program and of the reports. C126: a signal that arrives when signals are let in and the shell's data is not in use, and is followed by no other, is handled as a whole: a few steps later the interrupted calls go on where they were, signals are let in, and only the job table has changed, as by the handler. The exception is a job in the background with several processes."
  },
  {
   "property": "C127",
   "status": "partial",
   "theorems": [
    "Rsh.C127_partial",
    "Rsh.C127_never",
    "Rsh.C127_said",
    "Rsh.C127_counterexample"
   ],
   "note": "C127, the case in which it holds: a shell started without arguments reads them in silence and with no other effect. Missing: every other start (`C127_never`). C127 fails for every start with an argument: before it does anything else the shell writes `arg: ` and its own name to standard output. C127, what is printed instead: a shell started with arguments prints `arg: ` and the argument for its own name and each argument it reads: those up to the option with `c`, or all of them if there is no program; and with a program, the words of the program in the form of a Rust list of strings. `rsh -c pwd`: three lines before that of `pwd`."
  },
  {
   "property": "C128",
   "status": "proved",
   "theorems": [
    "Rsh.C128_directory"
   ],
   "note": "C128. However the shell is started and whatever it is given, and whether or not the run ends well, its working directory is the one it was started in, changed by the changes of directory it has itself made, and each of those succeeded. (The events of children and substitutions are not among its own events.)"
  },
  {
   "property": "C129",
   "status": "proved",
   "theorems": [
    "Rsh.C129_opened",
    "Rsh.C129_streams",
    "Rsh.C129_anyPipes"
   ],
   "note": "C129, opening: in no run whatsoever does the shell process itself open a file for a redirection. C129, descriptors: if pipes can be created, a run that ends normally ends with the descriptors the shell began with. C129, descriptors, whatever pipes the system refuses: a run that ends normally ends with the three descriptors the shell began with, and any others it has are reading ends of pipes (`C136_refused_partial`)."
  },
  {
   "property": "C130",
   "status": "partial",
   "theorems": [
    "Rsh.C130_first",
    "Rsh.C130_evaluated_partial",
    "Rsh.C130_error",
    "Rsh.C130_counterexample"
   ],
   "note": "C130, what is read first: in every run of the shell, whatever its arguments and its input, the first file it tries to read is the one whose name is literally `~/.rshrc`. C130, what is done with a start-up file, if evaluating it does not give an error: it is evaluated in the shell itself, and a file that is missing or that does not parse does no harm. C130 fails: an error in a start-up file ends the shell before it has begun."
  },
  {
   "property": "C131",
   "status": "partial",
   "theorems": [
    "Rsh.C131_aliases_partial",
    "Rsh.C131_environment",
    "Rsh.C131_counterexample",
    "Rsh.C131_again_partial",
    "Rsh.C131_quote"
   ],
   "note": "C131, as far as it holds: `alias -p` writes one line for each alias, and changes nothing. Missing: `alias` alone, see below. C131: `export` writes one line for each variable of the environment, and changes nothing. C131 fails: `alias` without arguments crashes the shell instead of listing the aliases. C131, the listing can be typed again: in any other session it gives every alias its value, if there is no single quote, `=` or `-p` in any of them, and leaves the other aliases alone. C131 fails: an alias whose value has a single quote is listed as a line that does not define it."
  },
  {
   "property": "C132",
   "status": "partial",
   "theorems": [
    "Rsh.C132_split_partial",
    "Rsh.C132_single",
    "Rsh.C132_crash",
    "Rsh.C132_counterexample"
   ],
   "note": "C132, as far as it holds: the name and the arguments are split at blanks, in order; a phrase in double quotes stays together, if there is one in the text, and an argument with a single quote is left as it is. Missing: texts with more than one phrase in double quotes, and phrases of one word (see below). C132: a command whose name has a single quote is left as it is. C132, when it crashes: for a name of blanks only, and for no other command. C132 fails: a quoted word takes the next word with it, and a second phrase is torn."
  },
  {
   "property": "C133",
   "status": "partial",
   "theorems": [
    "Rsh.C133_quotes_partial",
    "Rsh.C133_bared",
    "Rsh.C133_counterexample"
   ],
   "note": "C133, as far as it holds: of the name and of every argument in quotes of the one kind the quotes are removed; the other words, and the shell, are left as they are. Missing: `$` and backticks in words in double quotes. Every word is bared to exactly one text, so the hypotheses of `C133_quotes_partial` can be met for every command. C133 fails: in double quotes a `$` takes the next character with it."
  },
  {
   "property": "C134",
   "status": "partial",
   "theorems": [
    "Rsh.C134_outputs_partial",
    "Rsh.C134_none",
    "Rsh.C134_places_partial",
    "Rsh.C134_counterexample"
   ],
   "note": "**C134**, as far as it holds: each command substitution among the assignments, the name and the arguments is replaced by its output as one word, one after the other from left to right, and everything else of the command is as before; the shell is as before except for the copies it made. (What is missing: a substitution in an assignment that has another `=`, see `C134_counterexample`; output that does not fit into the pipe, see C25.) C134: a command without substitutions is left as it is, and so is the shell. C134: whatever the substitutions give, a command keeps its redirections and the number of its words, so that each substitution becomes one word; the words that are no substitutions stay as they are, each in its place. (Missing: that a substitution is replaced by its output, which fails in assignments, see `C134_counterexample`.) C134 fails: in an assignment only the text up to the next `=` is taken for the substitution."
  },
  {
   "property": "C135",
   "status": "partial",
   "theorems": [
    "Rsh.C135_none_partial",
    "Rsh.C135_counterexample"
   ],
   "note": "C135, as far as it holds: a text without the character is read to its end. (Missing: texts with it, see below.) C135 fails for every text: what is meant to read up to the second of two characters stops before the first, as `take_until` does."
  },
  {
   "property": "C136",
   "status": "partial",
   "theorems": [
    "Rsh.C136_refused_partial",
    "Rsh.C136_open",
    "Rsh.C136_counterexample"
   ],
   "note": "**C136**, the part that holds: when the system refuses pipe number `i` of a pipeline, the shell prints an error message and comes back to the prompt. Exactly the `i` commands in front of it have been started (those of them for which there was a process), the exit status stays, and nothing has been waited for. But the job stays in the table as a running job, with the pid -1 for every command that was not started; the signals stay blocked; and the reading end of the pipe before, if any, stays open. **C136**, descriptors at every prompt: whatever pipes the system has refused, and whenever, the three standard descriptors of the shell are its own, and anything else that is open is the reading end of a pipe. C136 is false: the job, the descriptor and the blocked signals stay."
  },
  {
   "property": "C137",
   "status": "partial",
   "theorems": [
    "Rsh.C137_silent_partial",
    "Rsh.C137_counterexample",
    "Rsh.C137_background",
    "Rsh.C137_substitution"
   ],
   "note": "**C137**, what happens instead: when the system refuses every process of a pipeline in the foreground, and there is no child to wait for, then nothing at all is printed, the exit status is that of the command before, and the list goes on with it; the job table is as it was. (The first `k` attempts to wait may have been interrupted.) C137 is false: nothing is printed, `ls && pwd` goes on, `ls &` is announced as pid -1, and `ls \"$(ls)\"` ends the shell. **C137**, a pipeline in the background, whichever of its processes the system refuses: it is announced as if it had been started, with the pid -1 if it is the first process that was refused, and stays in the table as a running job with the pid -1 for each process that was refused. **C137** for command substitutions, in double quotes: when the system refuses the pipe or the process for it, the shell ends."
  },
  {
   "property": "C138",
   "status": "partial",
   "theorems": [
    "Rsh.C138_once",
    "Rsh.C138_written_partial",
    "Rsh.C138_counterexample"
   ],
   "note": "C138, at most once and last: in no run whatsoever is the history written more than once by the shell process itself, and nothing follows the writing. C138, the part that holds: where a session ends with the end of its input or with `exit`, the history is written once, to `history.txt` in the directory the shell is then in. Missing: sessions that end in another way, and that the directory is always the same (`C138_counterexample`). C138 fails: after `cd` the file is another one; a session that crashes, is replaced by a program or is terminated does not write it at all; and a process started for a substitution writes it as well."
  },
  {
   "property": "C139",
   "status": "partial",
   "theorems": [
    "Rsh.C139_literal",
    "Rsh.C139_any",
    "Rsh.C139_counterexample"
   ],
   "note": "The code violates it for every name without a value: C139_literal proves that at every prompt such an argument arrives at the program as the text $NAME."
  },
  {
   "property": "C140",
   "status": "partial",
   "theorems": [
    "Rsh.C140_blind",
    "Rsh.C140_counterexample"
   ],
   "note": "The code violates it: C140_blind proves that at every prompt the argument is the value of a variable named ? or the text $?, whatever the status; C140_counterexample has concrete sessions."
  },
  {
   "property": "C141",
   "status": "partial",
   "theorems": [
    "Rsh.C141_separate",
    "Rsh.C141_name",
    "Rsh.C141_quotes",
    "Rsh.C141_any",
    "Rsh.C141_counterexample"
   ],
   "note": "The code violates it: C141_separate and C141_name prove that parts that touch always arrive as separate arguments, C141_quotes that quotes inside a word are passed on; C141_counterexample has concrete sessions."
  },
  {
   "property": "C142",
   "status": "partial",
   "theorems": [
    "Rsh.C142_interrupt",
    "Rsh.C142_stop",
    "Rsh.C142_held_partial",
    "Rsh.C142_counterexample"
   ],
   "note": "**C142** is false: an interrupt from the keyboard (SIGINT) that arrives while the shell waits for a command substitution, whatever its text does, is the end of the shell, always: it panics, or, if a failed `exec` has taken the handlers away, is killed. **C142** is false for the stop key (SIGTSTP), too, as long as the handlers are there. **C142**, the part that holds: every signal that can be blocked, but SIGINT and SIGTSTP, is held back while the shell waits for a command substitution; the line is carried out. **C142** is false: reachable sessions that end with the line `a \"$(b c)\"`."
  },
  {
   "property": "C143",
   "status": "partial",
   "theorems": [
    "Rsh.C143_shielded_partial",
    "Rsh.C143_lets_in",
    "Rsh.C143_counterexample",
    "Rsh.C143_exact"
   ],
   "note": "**C143**, the part that holds: as long as nobody presses the interrupt key, the handler of SIGCHLD never starts while signals are held back. **C143** is false, whatever the shell is doing: if a child has changed its state while signals are held back, and the interrupt key is pressed, the handler of SIGCHLD starts at once. **C143** is false: an access between `interrupts_off` and `interrupts_on` is interrupted, and the shell crashes if a child has ended; the same in the midst of `delete_job`. **C143** and C87: with the interrupt key, too, it is only a child that is reaped during an access that crashes the shell; for programs that change the data this is exact."
  },
  {
   "property": "C144",
   "status": "proved",
   "theorems": [
    "Rsh.C144_line",
    "Rsh.C144_session"
   ],
   "note": "C144, one line: if none of its commands (nor those of the shell's functions) is named `export`, `eval`, `source`, `.` or `alias`, it leaves the environment of the shell as it is, and the same holds of the next line. C144, a session: however it ends, the environment is then the one the shell was started with."
  },
  {
   "property": "C145",
   "status": "proved",
   "theorems": [
    "Rsh.C145_line",
    "Rsh.C145_session"
   ],
   "note": "C145, one line: the shell itself then reads and opens no file. C145, a session: only the two start-up files are read, and no file is opened."
  },
  {
   "property": "C146",
   "status": "proved",
   "theorems": [
    "Rsh.C146_line",
    "Rsh.C146_session"
   ],
   "note": "C146, one line: with neither `fg` nor `bg` either, the shell sends no signal. C146, a session."
  },
  {
   "property": "C147",
   "status": "proved",
   "theorems": [
    "Rsh.C147_line",
    "Rsh.C147_session",
    "Rsh.C147_replaced"
   ],
   "note": "C147, one line: with neither `exit` nor `exec` either, and if no signal arrives during a command substitution, the shell does not end itself and does not become another program, and the history is not written. C147, a session without signals: it lasts until the end of the input (or a crash). C147, a session with any signals: the shell at least never becomes another program."
  },
  {
   "property": "C148",
   "status": "proved",
   "theorems": [
    "Rsh.C148_directory",
    "Rsh.C148_line",
    "Rsh.C148_aliases"
   ],
   "note": "C148, the directory: with no `cd` either, the working directory stays. C148, the directory after one line. C148, the aliases: with no `unalias` either, they stay."
  },
  {
   "property": "C149",
   "status": "partial",
   "theorems": [
    "Rsh.C149_collected_partial",
    "Rsh.C149_stuck",
    "Rsh.C149_crash",
    "Rsh.C149_later_partial"
   ],
   "note": "C149, when the command ends before the handler has returned and no other child runs: the prompt is back. Missing: whatever status the command has exited with, `$?` is what it was before. C149 fails whenever another child still runs: the command has ended, and its status has been collected, but the shell goes on waiting until some other child has something to report. C149 fails when descriptor 0 cannot be written to: the shell crashes. C149, when the command ends after the handler has returned and before anything else is reported: the prompt is back, and `$?` is what the command has exited with. Missing: after a command that has been killed, `$?` is what it was before."
  },
  {
   "property": "C150",
   "status": "proved",
   "theorems": [
    "Rsh.C150_line",
    "Rsh.C150_session"
   ],
   "note": "C150, one line: if its commands are builtins that evaluate no other text, with arguments that contain neither variables nor substitutions, and no builtin has been renamed by an alias, then the shell runs it without starting, or trying to start, any process; and the same holds of the next line. C150, whole sessions of such lines, also with signals."
  },
  {
   "property": "C151",
   "status": "proved",
   "theorems": [
    "Rsh.C151_variables"
   ],
   "note": "C151: at every prompt reached by lines, interrupts and signals such that no command that runs (also in functions) is an assignment or named `readonly`, `unset`, `export`, `eval`, `source`, `.` or `alias`, every variable that is not a positional parameter is as it was, be it by its plain name or in a namespace."
  },
  {
   "property": "C152",
   "status": "partial",
   "theorems": [
    "Rsh.C152_split_partial",
    "Rsh.C152_each_partial",
    "Rsh.C152_counterexample"
   ],
   "note": "C152, as far as it holds: `export` with several words does what one `export` for the first word and one for the others do. (What is missing are the words that mean something else at the first place.) C152, as far as it holds: `export` with any number of words does what one `export` for each of them does, in the order of the words. C152 fails: later words are never taken as options, while each alone would be."
  },
  {
   "property": "C153",
   "status": "partial",
   "theorems": [
    "Rsh.C153_ignored",
    "Rsh.C153_counterexample",
    "Rsh.C153_aliases_partial"
   ],
   "note": "C153 fails: a builtin ignores, without a message, all words but the first ones, as many as `lookedAt` says. C153 fails. C153, as far as it holds: `alias` with several words does what one `alias` for each of them does."
  },
  {
   "property": "C154",
   "status": "proved",
   "theorems": [
    "Rsh.C154_functions"
   ],
   "note": "C154: at every prompt reached by lines, interrupts and signals such that no command that runs (also in functions) is the definition of a function or named `unset`, `export`, `eval`, `source`, `.` or `alias`, every function is as it was, be it by its plain name or in a namespace."
  },
  {
   "property": "C155",
   "status": "proved",
   "theorems": [
    "Rsh.C155_line",
    "Rsh.C155_same",
    "Rsh.C155_run"
   ],
   "note": "C155, one line: if no function of the shell calls itself, directly or through others, and a line uses commands of rank `k` at most, then `k + 1` levels of nested evaluation are enough for it, at the prompt, in a script or after `-c`; and the functions it defines keep the next lines from running without end. C155, so what such a line does is independent of the room there is beyond that. C155, a whole run of the shell, from its arguments to its end: if the lines typed, the start-up files, the script and the text after `-c` use commands of rank `k` at most, then `k + 1` levels are enough."
  },
  {
   "property": "C156",
   "status": "partial",
   "theorems": [
    "Rsh.C156_ignored",
    "Rsh.C156_restored_partial",
    "Rsh.C156_counterexample"
   ],
   "note": "C156 fails, always: redirections and assignments around a call of a function in the foreground change nothing: the line behaves exactly as the call with its arguments alone, from every state of the shell. C156, the part that holds: after the call the descriptors and variables of the shell are what they are after the call alone. Missing: they do not hold during the call either (`C156_ignored`, `C156_counterexample`). C156 fails: neither a redirection at the call nor one at the definition is obeyed, even one that must fail."
  },
  {
   "property": "C157",
   "status": "partial",
   "theorems": [
    "Rsh.C157_builtinFirst",
    "Rsh.C157_call",
    "Rsh.C157_function_partial",
    "Rsh.C157_counterexample"
   ],
   "note": "C157 fails for the names of builtins, always: a line with a builtin that evaluates no text runs no body of a function, whatever functions the shell has. It needs no level of nesting, where a call of a function needs one (`C157_call`). A call of a function needs such a level. C157, the part that holds: a function hides the programs of its name. Whatever programs there are, the call has the effects of the body. Missing: the names of builtins (`C157_builtinFirst`). C157 fails: after `cd() { pwd; }`, `cd` is still the builtin; a function `ls` hides the program."
  },
  {
   "property": "C158",
   "status": "proved",
   "theorems": [
    "Rsh.C158_names"
   ],
   "note": "C158: `fg` and `bg` with any two names of a job, its number or the pid of one of its processes, do exactly the same."
  },
  {
   "property": "C159",
   "status": "partial",
   "theorems": [
    "Rsh.C159_line_partial",
    "Rsh.C159_lines_partial",
    "Rsh.C159_silent",
    "Rsh.C159_syntax"
   ],
   "note": "C159, the part that holds: a line that is accepted and does not fail with an error does exactly the same typed, in a script and after `-c`. Missing: errors (`C159_silent`, `C159_syntax`). C159, for any number of lines: typed or in a script, they lead to the same state and end. C159 fails for errors, always: typed, an error is reported; in a script and after `-c` it leaves no trace. C159 fails for syntax errors, always: typed, it is reported and the shell goes on (C15); in a script and after `-c` the shell crashes."
  },
  {
   "property": "C160",
   "status": "proved",
   "theorems": [
    "Rsh.C160_line",
    "Rsh.C160_run",
    "Rsh.C160_builtins"
   ],
   "note": "C160, one line: if the functions of the shell run only commands named in `P` (and builtins), there are no aliases and the line is of the same kind, then every program it starts, in the shell, in functions, in pipelines and in every forked copy of the shell, is the file of a name in `P` in some directory, started under that name; and the next lines meet the same functions. C160, a whole run of the shell, from its arguments to its end: if the lines typed, the start-up files, the script and the text after `-c` run only commands named in `P`, then so are all programs ever started. C160, so input that uses only builtins other than those that run texts or programs starts nothing at all."
  },
  {
   "property": "C161",
   "status": "proved",
   "theorems": [
    "Rsh.C161_session"
   ],
   "note": "C161: lines of pipelines of external commands joined by `&&`, `||` and `;`, typed while there are no jobs: if the `k`-th process of the session exits with the status `code k`, the pipelines that run are those that run by the usual rules, in the same order; each program gets its arguments, the environment, the directory and the reactions to signals of the shell, and the programs of a pipeline are connected; no other process is started. Each line leads back to the prompt; in the end the status is the one given by the rules, there are no jobs, and the shell is otherwise as before."
  },
  {
   "property": "C162",
   "status": "proved",
   "theorems": [
    "Rsh.C162_session"
   ],
   "note": "C162: lines of assignments, changes of directory and pipelines of external commands with arguments that are words, quoted texts or variables, joined by `&&`, `||` and `;`, typed while there are no jobs: if the `k`-th process of the session exits with the status `code k`, and a change of directory leads where `dirs` says, then the shell runs the pipelines that a small reference interpreter runs, in the same order, each with the arguments and in the directory the reference gives; no other process is started. Each line leads back to the prompt; in the end the variables, the directory and the status are those of the reference."
  },
  {
   "property": "C163",
   "status": "proved",
   "theorems": [
    "Rsh.C163_line",
    "Rsh.C163_run",
    "Rsh.C163_none"
   ],
   "note": "C163, one line: if the functions of the shell use only redirections out of `F` (and no builtins that evaluate other texts), there are no aliases and the line is of the same kind, then every file that is opened, in the shell, in functions, in pipelines and in every forked copy of the shell, is one of `F`, opened as written there; no file is read as a text; and the next lines meet the same functions. C163, a whole run of the shell, from its arguments to its end: if the lines typed, the start-up files, the script and the text after `-c` use only redirections out of `F`, then every file ever opened for a redirection, by the shell or any forked copy of it, is one of `F`, opened as written there. C163, so input without redirections opens no file but the texts it is read from."
  },
  {
   "property": "C164",
   "status": "proved",
   "theorems": [
    "Rsh.C164_depth",
    "Rsh.C164_session"
   ],
   "note": "C164: what the reference says does not depend on how deep calls may be nested, if it is deep enough: two depths at which it gets through a session give the same result, and if it gets through with one it does with every larger one. C164: lines as in C162, also with `export`, `unset`, `exit`, `return`, `source` and `eval`, assignments before and redirections of external commands, and definitions of functions; a command may be the call of a function. The layout of the lines is free, and comments and empty lines may come between. Calls may be nested, functions may call themselves, and files may be read in functions and in files. If the reference interpreter gets through the session with these nested at most `n` deep, then so does the shell, if it has room for as many: it runs the pipelines that the reference runs, in the same order, each with the arguments, in the directory, with the environment and the redirections the reference gives; no other process is started. Each line leads back to the prompt, unless the reference comes to `exit`, wherever that is: then the shell ends with the same status, and the last thing it does is to save the history. The shell itself writes the prompt for each line, what `pwd` says (also in functions and files), and the message for each line that fails; nothing else on its standard output. In the end the variables, the functions, the environment, the directory and the status are those of the reference."
  },
  {
   "property": "C165",
   "status": "proved",
   "theorems": [
    "Rsh.C165_script",
    "Rsh.C165_script_endless",
    "Rsh.C165_program"
   ],
   "note": "C165, a script that comes to `exit`: started with the script as its argument, the shell runs the pipelines the reference runs, as it should, and no others; then it ends with the status of the reference. The lines after `exit` do not matter. If `exit` is in a start-up file, the script is not even begun. The shell itself writes what it says of its arguments, and what `pwd` says, if start-up files without a program are missing or blank; there are no prompts, and no messages for lines that fail. C165, a script that does not come to `exit`: it runs in the same way. Afterwards the shell does not end (C82). C165, a line given with `-c`: it runs in the same way; the shell ends, with the status of `exit` if the reference comes to that, and otherwise with 0 whatever the status is (C98)."
  },
  {
   "property": "C166",
   "status": "proved",
   "theorems": [
    "Rsh.C166_exit",
    "Rsh.C166_eof"
   ],
   "note": "C166, a session that comes to `exit`: the shell, started without script, runs the pipelines the reference runs, and no others; then it ends with the status of the reference. The last thing it does is to save the history, in `history.txt`; but if it is a start-up file that comes to `exit`, no file is chosen yet, and the name is empty. The shell itself writes what it says of its arguments, what `pwd` says in start-up files, and for the lines what is said in C164, if start-up files without a program are missing or blank. C166, a session that ends with the end of the input: the same; the shell ends with status 0. There is one more prompt."
  },
  {
   "property": "C167",
   "status": "proved",
   "theorems": [
    "Rsh.C167_script",
    "Rsh.C167_others"
   ],
   "note": "C167, with a script: a start-up file that fails crashes the shell. Until then it does what the reference does, and nothing else; the script is not even read. The shell itself writes what it says of its arguments and what `pwd` says in the start-up files, but no message (on standard output) for the failure. C167, without a script: the same, interactive or with `-c`."
  },
  {
   "property": "C168",
   "status": "proved",
   "theorems": [
    "Rsh.C168_members"
   ],
   "note": "C168: at every prompt, for every pipeline of external commands with redirections and assignments in any of them, in the foreground or in the background: one process is started for each command, in order, which opens the files of that command and then is its program; what is redirected leads to the file of the last redirection, also where it would lead to a pipe otherwise, and all else is connected as without redirections; the environment of each program is that of the shell with the assignments of its own command only. (A redirection is about the descriptor of its operator, and the file is the text as typed; for numbers and quotes see C69.)"
  }
 ]
}
