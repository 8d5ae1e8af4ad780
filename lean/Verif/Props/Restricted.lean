import Verif.Proofs.Calm
import Verif.Spec.Prompt

/-!
# C144 … C148: what commands cannot do whose names do not occur
-/

namespace Rsh

open Spec

/-- The line theorem all others follow from. -/
theorem without_line (w : World) {D : List Str} (hD : ∀ x ∈ indirect, x ∈ D) (n : Nat) {t : Str} (ht : Without D t)
    {s : Sh} (hs : Confined D s) : CPost ⟨D, fun _ => False, False, False⟩ w s (interactiveLine w n t s) :=
  Calm.interactiveLine (L := ⟨D, fun _ => False, False, False⟩) hD n ht s hs

theorem initSh_confined (D : List Str) (root : Bool) (ppid pid : Nat) (cwd : Str) (env : AMap Str) (waits : List WRes) :
    Confined D (initSh root ppid pid cwd env waits) := by
  refine ⟨fun id f b h => ?_, fun k _ => rfl⟩
  have : ((initSh root ppid pid cwd env waits).ctx.heap id).funcs = [] := by
    show ((CtxMgr.init root ppid pid cwd env).heap id).funcs = []
    unfold CtxMgr.init
    dsimp only
    split <;> rfl
  unfold Ctx.getFunction at h
  rw [this] at h
  cases h

/-- The reasons a session has for events and ends other than commands. -/
def sessionLack (D : List Str) (ins : List SessionIn) : Lack where
  D := D
  event
    | .readFile p => p = cs!"~/.rshrc" ∨ p = cs!"~/.profile"
    | .saveHistory _ => True
    | _ => False
  ends := ∃ g, .sig g ∈ ins
  opens := True

/-- The session theorem all others follow from. -/
theorem without_session (w : World) {D : List Str} (hD : ∀ x ∈ indirect, x ∈ D) (n k : Nat) (name : Str)
    {ins : List SessionIn} (h : SessionWithout D w ins) (root : Bool) (ppid pid : Nat) (cwd : Str) (env : AMap Str)
    (waits : List WRes) :
    CPost (sessionLack D ins) w (initSh root ppid pid cwd env waits)
      (mainM w n k [name] ins (initSh root ppid pid cwd env waits)) := by
  refine Calm.mainM (L := sessionLack D ins) hD trivial (fun g hg => ⟨g, hg⟩) (fun p => .inl trivial) n k name h.lines (fun p hp => ⟨hp, ?_⟩)
    (initSh_confined ..) rfl
  rcases hp with rfl | rfl
  · exact h.rc
  · exact h.profile

theorem Kept.through {L : Lack} {s s' : Sh} {P : Event → Prop} (h : Kept L s s') (hP : ∀ e, Allowed L e → P e) :
    Through P s s' := by
  obtain ⟨l, e, hl⟩ := h.events
  exact ⟨l, e, fun e he => hP e (hl e he)⟩

/-! ## C144 -/

/-- C144, one line: if none of its commands (nor those of the shell's functions) is named `export`, `eval`, `source`,
`.` or `alias`, it leaves the environment of the shell as it is, and the same holds of the next line. -/
theorem C144_line (w : World) (n : Nat) {t : Str} (ht : Without indirect t) {s : Sh} (hs : Confined indirect s) :
    (interactiveLine w n t s).2.env = s.env ∧ Confined indirect (interactiveLine w n t s).2 :=
  have h := without_line w (fun _ h => h) n ht hs
  ⟨h.kept.env, h.tame⟩

/-- C144, a session: however it ends, the environment is then the one the shell was started with. -/
theorem C144_session (w : World) (n k : Nat) (name : Str) {ins : List SessionIn} (h : SessionWithout indirect w ins)
    (root : Bool) (ppid pid : Nat) (cwd : Str) (env : AMap Str) (waits : List WRes) :
    (mainM w n k [name] ins (initSh root ppid pid cwd env waits)).2.env = env :=
  (without_session w (fun _ h => h) n k name h root ppid pid cwd env waits).kept.env

/-! ## C145 -/

/-- C145, one line: the shell itself then reads and opens no file. -/
theorem C145_line (w : World) (n : Nat) {t : Str} (ht : Without indirect t) {s : Sh} (hs : Confined indirect s) :
    Through touchesNoFile s (interactiveLine w n t s).2 :=
  (without_line w (fun _ h => h) n ht hs).kept.through fun e he => by
    rcases he with he | he
    · exact he.elim
    · cases e <;> first | exact he | trivial

/-- C145, a session: only the two start-up files are read, and no file is opened. -/
theorem C145_session (w : World) (n k : Nat) (name : Str) {ins : List SessionIn} (h : SessionWithout indirect w ins)
    (root : Bool) (ppid pid : Nat) (cwd : Str) (env : AMap Str) (waits : List WRes) :
    ∀ e ∈ (mainM w n k [name] ins (initSh root ppid pid cwd env waits)).2.trace,
      touchesNoFile e ∨ e = .readFile (cs!"~/.rshrc") ∨ e = .readFile (cs!"~/.profile") := by
  obtain ⟨l, e, hl⟩ := (without_session w (fun _ h => h) n k name h root ppid pid cwd env waits).kept.events
  rw [e]
  intro e he
  have he : e ∈ l := by simpa [initSh] using he
  rcases hl e he with h | h
  · cases e with
    | readFile p => rcases h with rfl | rfl <;> simp
    | saveHistory p => exact .inl trivial
    | _ => exact h.elim
  · refine .inl ?_
    cases e <;> first | exact h | trivial

/-! ## C146 -/

/-- C146, one line: with neither `fg` nor `bg` either, the shell sends no signal. -/
theorem C146_line (w : World) (n : Nat) {t : Str} (ht : Without (indirect ++ [cs!"fg", cs!"bg"]) t) {s : Sh}
    (hs : Confined (indirect ++ [cs!"fg", cs!"bg"]) s) : Through sendsNoSignal s (interactiveLine w n t s).2 :=
  (without_line w (fun _ h => List.mem_append_left _ h) n ht hs).kept.through fun e he => by
    rcases he with he | he
    · exact he.elim
    · cases e with
      | kill p => exact he ⟨by decide, by decide⟩
      | _ => trivial

/-- C146, a session. -/
theorem C146_session (w : World) (n k : Nat) (name : Str) {ins : List SessionIn}
    (h : SessionWithout (indirect ++ [cs!"fg", cs!"bg"]) w ins)
    (root : Bool) (ppid pid : Nat) (cwd : Str) (env : AMap Str) (waits : List WRes) :
    ∀ e ∈ (mainM w n k [name] ins (initSh root ppid pid cwd env waits)).2.trace, sendsNoSignal e := by
  obtain ⟨l, e, hl⟩ := (without_session w (fun _ h => List.mem_append_left _ h) n k name h root ppid pid cwd env waits).kept.events
  rw [e]
  intro e he
  have he : e ∈ l := by simpa [initSh] using he
  rcases hl e he with h | h
  · cases e with
    | kill p => exact h.elim
    | _ => trivial
  · cases e with
    | kill p => exact h ⟨by show _ ∈ indirect ++ _; decide, by show _ ∈ indirect ++ _; decide⟩
    | _ => trivial

/-! ## C147 -/

/-- C147, one line: with neither `exit` nor `exec` either, and if no signal arrives during a command substitution, the
shell does not end itself and does not become another program, and the history is not written. -/
theorem C147_line (w : World) (hw : ∀ tr, w.substSig tr = none) (n : Nat) {t : Str}
    (ht : Without (indirect ++ [cs!"exit", cs!"exec"]) t) {s : Sh} (hs : Confined (indirect ++ [cs!"exit", cs!"exec"]) s)
    (hf : s.forked = false) :
    Lasts (interactiveLine w n t s).1 ∧ Through savesNoHistory s (interactiveLine w n t s).2 := by
  have h := without_line w (fun _ h => List.mem_append_left _ h) n ht hs
  refine ⟨?_, h.kept.through fun e he => ?_⟩
  · have ho := h.out
    generalize (interactiveLine w n t s).1 = o at ho
    cases o with
    | exit c =>
      rcases ho with ho | ho | ho | ho
      · exact ho (by decide)
      · rw [hf] at ho; cases ho
      · exact ho hw
      · exact ho
    | execed i => exact ho (by decide)
    | _ => trivial
  · rcases he with he | he
    · exact he.elim
    · cases e with
      | saveHistory p => exact he (by decide)
      | _ => trivial

/-- C147, a session without signals: it lasts until the end of the input (or a crash). -/
theorem C147_session (w : World) (hw : ∀ tr, w.substSig tr = none) (n k : Nat) (name : Str) {ins : List SessionIn}
    (h : SessionWithout (indirect ++ [cs!"exit", cs!"exec"]) w ins) (hi : ∀ g, .sig g ∉ ins)
    (root : Bool) (ppid pid : Nat) (cwd : Str) (env : AMap Str) (waits : List WRes) :
    Lasts (mainM w n k [name] ins (initSh root ppid pid cwd env waits)).1 := by
  have h := (without_session w (fun _ h => List.mem_append_left _ h) n k name h root ppid pid cwd env waits).out
  generalize (mainM w n k [name] ins (initSh root ppid pid cwd env waits)).1 = o at h
  cases o with
  | exit c =>
    rcases h with ho | ho | ho | ⟨g, ho⟩
    · exact ho (by show _ ∈ indirect ++ _; decide)
    · cases ho
    · exact ho hw
    · exact hi g ho
  | execed i => exact h (by show _ ∈ indirect ++ _; decide)
  | _ => trivial

/-- C147, a session with any signals: the shell at least never becomes another program. -/
theorem C147_replaced (w : World) (n k : Nat) (name : Str) {ins : List SessionIn}
    (h : SessionWithout (indirect ++ [cs!"exec"]) w ins)
    (root : Bool) (ppid pid : Nat) (cwd : Str) (env : AMap Str) (waits : List WRes) (i : ExecImage) :
    (mainM w n k [name] ins (initSh root ppid pid cwd env waits)).1 ≠ .execed i := by
  intro e
  have h := (without_session w (fun _ h => List.mem_append_left _ h) n k name h root ppid pid cwd env waits).out
  rw [e] at h
  exact h (by show _ ∈ indirect ++ _; decide)

/-! ## C148 -/

/-- C148, the directory: with no `cd` either, the working directory stays. -/
theorem C148_directory (w : World) (n k : Nat) (name : Str) {ins : List SessionIn}
    (h : SessionWithout (indirect ++ [cs!"cd"]) w ins)
    (root : Bool) (ppid pid : Nat) (cwd : Str) (env : AMap Str) (waits : List WRes) :
    (mainM w n k [name] ins (initSh root ppid pid cwd env waits)).2.cwd = cwd :=
  (without_session w (fun _ h => List.mem_append_left _ h) n k name h root ppid pid cwd env waits).kept.cwd
    (by show _ ∈ indirect ++ _; decide)

/-- C148, the directory after one line. -/
theorem C148_line (w : World) (n : Nat) {t : Str} (ht : Without (indirect ++ [cs!"cd"]) t) {s : Sh}
    (hs : Confined (indirect ++ [cs!"cd"]) s) : (interactiveLine w n t s).2.cwd = s.cwd :=
  (without_line w (fun _ h => List.mem_append_left _ h) n ht hs).kept.cwd (by show _ ∈ indirect ++ _; decide)

/-- C148, the aliases: with no `unalias` either, they stay. -/
theorem C148_aliases (w : World) (n : Nat) {t : Str} (ht : Without (indirect ++ [cs!"unalias"]) t) {s : Sh}
    (hs : Confined (indirect ++ [cs!"unalias"]) s) : (interactiveLine w n t s).2.aliases = s.aliases :=
  (without_line w (fun _ h => List.mem_append_left _ h) n ht hs).kept.aliases (by show _ ∈ indirect ++ _; decide)

/-! ## Cases that meet the hypotheses -/

/-- Everything the theorems exclude. -/
def allDenied : List Str := indirect ++ [cs!"fg", cs!"bg", cs!"exit", cs!"exec", cs!"cd", cs!"unalias"]

/-- Assignments, functions, pipelines, redirections, and words that only expand to the name of a builtin. -/
def demoPlain : List SessionIn :=
  [.line (cs!"x=export"), .line (cs!"$x A=1"), .line (cs!"f() { A=2 ls; pwd; }"), .line (cs!"f; readonly x"),
   .line (cs!"ls > out | wc && unset x"), .line (cs!"pwd \"`exit 3`\"")]

example : SessionWithout allDenied (demoWorld [(cs!"~/.rshrc", cs!"y=1\n")]) demoPlain where
  lines := by
    intro t ht
    simp only [demoPlain, List.mem_cons, SessionIn.line.injEq, List.not_mem_nil, or_false] at ht
    rcases ht with rfl | rfl | rfl | rfl | rfl | rfl <;> decide +kernel
  rc := by
    intro tr t h
    obtain rfl : cs!"y=1\n" = t := by cases h; rfl
    decide +kernel
  profile := by
    intro tr t h
    cases h

/-- The names are those of the commands, also of those in functions; definitions are marked. -/
example : commandNames (cs!"f() { A=2 ls; pwd; }") = [defMark, cs!"ls", cs!"pwd"] ∧
    commandNames (cs!"x=1; ls | wc -l && cd / &") = [[], cs!"ls", cs!"wc", cs!"cd"] := by decide +kernel

/-- The excluded commands do what the others cannot. -/
example : (demo [cs!"export A=1"]).env.get (cs!"A") = some (cs!"1") ∧ (demo [cs!"eval 'export A=1'"]).env.get (cs!"A") = some (cs!"1") ∧
    (demo [cs!"alias pwd=export", cs!"pwd A=1"]).env.get (cs!"A") = some (cs!"1") ∧
    outcome (demoOut [cs!"exit 3"]) = .exit 3 ∧
    outcome (demoOut [cs!"exec ls"]) = .execed (cs!"/bin/ls") [cs!"ls"] ∧
    (demo [cs!"cd /tmp"]).cwd = cs!"/tmp" := by decide +kernel

end Rsh
