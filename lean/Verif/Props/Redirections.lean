import Verif.Spec.Prompt
import Verif.Proofs.Redirect
import Verif.Proofs.Prompt
import Verif.Proofs.Call
import Verif.Props.Pipelines

/-!
# Properties C69, C70, C71, C72, C76: redirections and prefix assignments
-/

namespace Rsh

open Spec

theorem RCmd.applied_kept {c : RCmd} (h : c.Kept) : c.applied = c.redirs := by
  unfold RCmd.applied RCmd.redirs
  split
  · rcases h with h | h
    · contradiction
    · rw [h]
  · rfl

/-! ## C69 -/

/-- What the code does with every redirection, whatever number is written before it and however the name of
the file is quoted: the files are opened in the order written, each under the text as typed, quotes and
variables included, and the descriptor is the one of the operator. -/
theorem C69_exact (w : World) (hw : Resources w) (n : Nat) (s : Sh) (hp : AtPrompt w s) (c : RCmd)
    (hok : c.Ok s) (hk : c.Kept) (ho : ∀ r ∈ c.redirs, ∀ tr, w.openOk (tr ++ s.trace) r.op r.file = true)
    (file : Str) (hrun : ∀ tr, Runnable w s (tr ++ s.trace) c.name file) :
    ∃ pid img, Happened s (interactiveLine w (n + 1) c.text s).2
        [.spawn pid (.exec img) (c.redirs.map fun r => .opened r.op r.file)] ∧
      img.path = file ∧ img.argv = c.argv ∧
      ∀ fd, chanOf img fd = match lastOn fd c.redirs with
        | some r => some (.file r.op r.file)
        | none => ownChan fd := by
  have h := rcmd_program hw n hp hok (by rw [RCmd.applied_kept hk]; exact ho) hrun
  rw [RCmd.applied_kept hk] at h
  obtain ⟨pid, img, h1, h2, h3, -, h4⟩ := h
  exact ⟨pid, img, h1, h2, h3, h4⟩

theorem Redir.asked_usual {r : Redir} (h : r.Usual) : r.asked = r.fd := h.num

theorem askedOn_usual {rs : List Redir} (h : ∀ r ∈ rs, r.Usual) (fd : Int) : askedOn fd rs = lastOn fd rs := by
  unfold askedOn lastOn
  rw [List.filter_congr fun r hr => by rw [Redir.asked_usual (h r hr)]]

/-- C69, the part that holds: at every prompt, for a command with any redirections `<`, `>` and `>>` in
any places, the files are opened in the order written, and each descriptor of the program is the last one
its redirections ask for, or the shell's own if there is none.  Missing: a number before the operator that
asks for another descriptor and a quoted file name (`C69_exact`, `C69_counterexample`), redirections after
the name of a command without arguments (`C70_lost`); for files that cannot be opened see C93. -/
theorem C69_redirections_partial (w : World) (hw : Resources w) (n : Nat) (s : Sh) (hp : AtPrompt w s) (c : RCmd)
    (hok : c.Ok s) (hu : ∀ r ∈ c.redirs, r.Usual) (hk : c.Kept)
    (ho : ∀ r ∈ c.redirs, ∀ tr, w.openOk (tr ++ s.trace) r.op r.file = true)
    (file : Str) (hrun : ∀ tr, Runnable w s (tr ++ s.trace) c.name file) :
    ∃ pid img, Happened s (interactiveLine w (n + 1) c.text s).2
        [.spawn pid (.exec img) (c.redirs.map fun r => .opened r.op r.file)] ∧
      img.path = file ∧ img.argv = c.argv ∧
      ∀ fd, chanOf img fd = match askedOn fd c.redirs with
        | some r => some (.file r.op r.file)
        | none => ownChan fd := by
  obtain ⟨pid, img, h1, h2, h3, h4⟩ := C69_exact w hw n s hp c hok hk ho file hrun
  exact ⟨pid, img, h1, h2, h3, fun fd => by rw [askedOn_usual hu]; exact h4 fd⟩

/-- A program's descriptors, if a line starts exactly one program. -/
def startedFds (s : Sh) : Option (List (Int × Chan)) :=
  match s.trace with
  | [.spawn _ (.exec img) _] => some (img.fds.map fun p => (p.1, p.2.chan))
  | _ => none

/-- C69 fails: the number before the operator is not used (`2>` redirects descriptor 1), and the quotes
of a quoted file name are taken for a part of it. -/
theorem C69_counterexample :
    startedFds (demo [cs!"ls a 2> f"]) = some [(1, .file .output (cs!"f")), (0, .orig 0), (2, .orig 2)] ∧
    startedFds (demo [cs!"ls a > 'f'"]) = some [(1, .file .output (cs!"'f'")), (0, .orig 0), (2, .orig 2)] := by
  decide +kernel

/-- `A=1 < inp A=2 prog > a x >> b`. -/
def redirSample : RCmd where
  front := [.assign (cs!"A") (.plain (cs!"1")), .redir ⟨.input, .plain (cs!"inp"), none⟩, .assign (cs!"A") (.plain (cs!"2"))]
  name := cs!"prog"
  back := [.redir ⟨.output, .plain (cs!"a"), none⟩, .arg (word (cs!"x")).1 (word (cs!"x")).2, .redir ⟨.append, .plain (cs!"b"), none⟩]

theorem redirSample_ok : redirSample.Ok (atPrompt []) where
  redirs := by
    intro r hr
    simp only [redirSample, RCmd.redirs, frontRedirs, backRedirs, List.cons_append, List.nil_append, List.mem_cons,
      List.not_mem_nil, or_false] at hr
    rcases hr with rfl | rfl | rfl <;> exact ⟨by decide, by decide, by decide⟩
  assigns := by
    intro a ha
    simp only [redirSample, frontAssigns, List.mem_cons, List.not_mem_nil, or_false] at ha
    rcases ha with rfl | rfl <;> decide
  name := by decide
  external := by decide
  alias := by decide +kernel
  function := by decide +kernel
  typed := by decide
  means := by
    intro a ha
    simp only [redirSample, backArgs, List.mem_cons, List.not_mem_nil, or_false] at ha
    subst ha
    exact means_word (by decide)
  nul := by decide

theorem redirSample_usual : ∀ r ∈ redirSample.redirs, r.Usual := by
  intro r hr
  simp only [redirSample, RCmd.redirs, frontRedirs, backRedirs, List.cons_append, List.nil_append, List.mem_cons,
    List.not_mem_nil, or_false] at hr
  rcases hr with rfl | rfl | rfl <;> exact ⟨rfl, rfl⟩

example : redirSample.text = cs!" A=1 <inp A=2 prog >a x >>b" := by decide +kernel

example : ∃ pid img, Happened (atPrompt []) (interactiveLine (demoWorld []) 20 redirSample.text (atPrompt [])).2
      [.spawn pid (.exec img) [.opened .input (cs!"inp"), .opened .output (cs!"a"), .opened .append (cs!"b")]] ∧
    img.argv = [cs!"prog", cs!"x"] ∧ chanOf img 0 = some (.file .input (cs!"inp")) ∧
    chanOf img 1 = some (.file .append (cs!"b")) ∧ chanOf img 2 = some (.orig 2) := by
  obtain ⟨pid, img, h1, -, h2, h3⟩ := C69_redirections_partial (demoWorld []) (demo_resources []) 19 (atPrompt [])
    (atPrompt_ok (by decide +kernel)) redirSample redirSample_ok redirSample_usual (.inl (by decide)) (by
      intro r hr tr
      simp only [redirSample, RCmd.redirs, frontRedirs, backRedirs, List.cons_append, List.nil_append, List.mem_cons,
        List.not_mem_nil, or_false] at hr
      rcases hr with rfl | rfl | rfl <;> rfl) _
    (fun tr => demo_runnable (by decide +kernel) (by decide) (by decide) _)
  exact ⟨pid, img, h1, h2, h3 0, h3 1, h3 2⟩

/-- `B='x=y' prog a 2> 'f' 5< g 1>> "h"`. -/
def oddSample : RCmd where
  front := [.assign (cs!"B") (.single (cs!"x=y"))]
  name := cs!"prog"
  back := [.arg (word (cs!"a")).1 (word (cs!"a")).2, .redir ⟨.output, .single (cs!"f"), some 2⟩,
    .redir ⟨.input, .plain (cs!"g"), some 5⟩, .redir ⟨.append, .double (cs!"h"), some 1⟩]

theorem oddSample_redirs : oddSample.redirs = [⟨.output, .single (cs!"f"), some 2⟩,
    ⟨.input, .plain (cs!"g"), some 5⟩, ⟨.append, .double (cs!"h"), some 1⟩] := rfl

theorem oddSample_ok : oddSample.Ok (atPrompt []) where
  redirs := by
    intro r hr
    simp only [oddSample_redirs, List.mem_cons, List.not_mem_nil, or_false] at hr
    rcases hr with rfl | rfl | rfl <;> exact ⟨by decide, by decide, by simp⟩
  assigns := by
    intro a ha
    simp only [oddSample, frontAssigns, List.mem_cons, List.not_mem_nil, or_false] at ha
    subst ha
    decide
  name := by decide
  external := by decide
  alias := by decide +kernel
  function := by decide +kernel
  typed := by decide
  means := by
    intro a ha
    simp only [oddSample, backArgs, List.mem_cons, List.not_mem_nil, or_false] at ha
    subst ha
    exact means_word (by decide)
  nul := by decide

example : oddSample.text = cs!" B='x=y' prog a 2>'f' 5<g 1>>\"h\"" := by decide +kernel

example : ∃ pid img, Happened (atPrompt []) (interactiveLine (demoWorld []) 20 oddSample.text (atPrompt [])).2
      [.spawn pid (.exec img) [.opened .output (cs!"'f'"), .opened .input (cs!"g"), .opened .append (cs!"\"h\"")]] ∧
    chanOf img 0 = some (.file .input (cs!"g")) ∧ chanOf img 1 = some (.file .append (cs!"\"h\"")) ∧
    chanOf img 2 = some (.orig 2) ∧ chanOf img 5 = none := by
  obtain ⟨pid, img, h1, -, -, h3⟩ := C69_exact (demoWorld []) (demo_resources []) 19 (atPrompt [])
    (atPrompt_ok (by decide +kernel)) oddSample oddSample_ok (.inl (by decide)) (by
      intro r hr tr
      simp only [oddSample_redirs, List.mem_cons, List.not_mem_nil, or_false] at hr
      rcases hr with rfl | rfl | rfl <;> rfl) _
    (fun tr => demo_runnable (by decide +kernel) (by decide) (by decide) _)
  exact ⟨pid, img, h1, h3 0, h3 1, h3 2, h3 5⟩

/-! ## C70 -/

/-- C70, the part that holds: if the command has an argument, or all redirections come before the name,
then each of them is opened when the command starts, and the last one of a descriptor is what the program
finds there.  Missing: redirections after the name of a command without arguments, and those of builtins
(`C70_lost`, `C70_counterexample`). -/
theorem C70_applied_partial (w : World) (hw : Resources w) (n : Nat) (s : Sh) (hp : AtPrompt w s) (c : RCmd)
    (hok : c.Ok s) (hk : c.Kept) (ho : ∀ r ∈ c.redirs, ∀ tr, w.openOk (tr ++ s.trace) r.op r.file = true)
    (file : Str) (hrun : ∀ tr, Runnable w s (tr ++ s.trace) c.name file) :
    ∃ pid img evs, Happened s (interactiveLine w (n + 1) c.text s).2 [.spawn pid (.exec img) evs] ∧
      (∀ r ∈ c.redirs, .opened r.op r.file ∈ evs) ∧
      ∀ rs r rs', c.redirs = rs ++ r :: rs' → (∀ r' ∈ rs', r'.fd ≠ r.fd) →
        chanOf img r.fd = some (.file r.op r.file) := by
  obtain ⟨pid, img, h1, -, -, h2⟩ := C69_exact w hw n s hp c hok hk ho file hrun
  refine ⟨pid, img, _, h1, fun r hr => List.mem_map.2 ⟨r, hr, rfl⟩, fun rs r rs' e hl => ?_⟩
  rw [h2, e]
  have : lastOn r.fd (rs ++ r :: rs') = some r := by
    unfold lastOn
    have e' : rs'.filter (fun r' => decide (r'.fd = r.fd)) = [] := List.filter_eq_nil_iff.2 (by simpa using hl)
    rw [List.filter_append, List.filter_cons_of_pos (by simp), e']
    simp
  rw [this]

/-- C70 fails for every command without arguments: no redirection written after its name is opened, and the
program has the descriptors it would have without them. -/
theorem C70_lost (w : World) (hw : Resources w) (n : Nat) (s : Sh) (hp : AtPrompt w s) (c : RCmd)
    (hok : c.Ok s) (hno : backArgs c.back = [])
    (ho : ∀ r ∈ frontRedirs c.front, ∀ tr, w.openOk (tr ++ s.trace) r.op r.file = true)
    (file : Str) (hrun : ∀ tr, Runnable w s (tr ++ s.trace) c.name file) :
    ∃ pid img, Happened s (interactiveLine w (n + 1) c.text s).2
        [.spawn pid (.exec img) ((frontRedirs c.front).map fun r => .opened r.op r.file)] ∧
      ∀ fd, chanOf img fd = match lastOn fd (frontRedirs c.front) with
        | some r => some (.file r.op r.file)
        | none => ownChan fd := by
  have e : c.applied = frontRedirs c.front := by simp [RCmd.applied, hno]
  have h := rcmd_program hw n hp hok (by rw [e]; exact ho) hrun
  rw [e] at h
  obtain ⟨pid, img, h1, -, -, -, h4⟩ := h
  exact ⟨pid, img, h1, h4⟩

/-- C70 fails: `ls > f` and `pwd > f` write to the terminal. -/
theorem C70_counterexample :
    startedFds (demo [cs!"ls > f"]) = some [(0, .orig 0), (1, .orig 1), (2, .orig 2)] ∧
    (match (demo [cs!"pwd > f"]).trace with
     | [.print to t] => decide (to = some (.orig 1) ∧ t = cs!"/\n")
     | _ => false) = true := by
  decide +kernel

/-- `prog > f`. -/
example : ∃ pid img, Happened (atPrompt []) (interactiveLine (demoWorld []) 20
      (RCmd.text ⟨[], cs!"prog", [.redir ⟨.output, .plain (cs!"f"), none⟩]⟩) (atPrompt [])).2 [.spawn pid (.exec img) []] ∧
    chanOf img 1 = some (.orig 1) := by
  obtain ⟨pid, img, h1, h2⟩ := C70_lost (demoWorld []) (demo_resources []) 19 (atPrompt []) (atPrompt_ok (by decide +kernel))
    ⟨[], cs!"prog", [.redir ⟨.output, .plain (cs!"f"), none⟩]⟩ ⟨by
      intro r hr
      simp only [RCmd.redirs, frontRedirs, backRedirs, List.nil_append, List.mem_singleton] at hr
      subst hr
      exact ⟨by decide, by decide, by decide⟩, by simp [frontAssigns], by decide, by decide, by decide +kernel, by decide +kernel,
      by simp [backArgs], by simp [backArgs], by decide⟩ rfl (by simp [frontRedirs]) _
    (fun tr => demo_runnable (by decide +kernel) (by decide) (by decide) _)
  exact ⟨pid, img, h1, h2 1⟩

/-! ## C71, C72 -/

theorem writeChunks_append {f : OpenFlags} (hw : f.write = true) (ha : f.append = true) (chunks : List Bytes) :
    ∀ (content : Bytes) (p : Nat), writeChunks content ⟨f, p⟩ chunks = content ++ chunks.flatten := by
  induction chunks with
  | nil => intro content p; simp [writeChunks]
  | cons ch chunks ih =>
    intro content p
    unfold writeChunks writeFile
    simp only [hw, ha, Bool.not_true, Bool.false_eq_true, if_false, if_true]
    rw [ih]
    simp

theorem writeChunks_over {f : OpenFlags} (hw : f.write = true) (ha : f.append = false) (chunks : List Bytes) :
    ∀ (done rest : Bytes), writeChunks (done ++ rest) ⟨f, done.length⟩ chunks =
      done ++ chunks.flatten ++ rest.drop chunks.flatten.length := by
  induction chunks with
  | nil => intro done rest; simp [writeChunks]
  | cons ch chunks ih =>
    intro done rest
    unfold writeChunks writeFile
    simp only [hw, ha, Bool.not_true, Bool.false_eq_true, if_false]
    have e : (done ++ rest).take done.length ++ List.replicate (done.length - (done ++ rest).length) 0 ++ ch ++
        (done ++ rest).drop (done.length + ch.length) = (done ++ ch) ++ rest.drop ch.length := by
      have : done.length - (done ++ rest).length = 0 := by simp
      rw [this, List.drop_append]
      simp
    rw [e]
    have := ih (done ++ ch) (rest.drop ch.length)
    rw [List.length_append] at this
    rw [this]
    simp [List.drop_drop]

/-- What `>` does to a file: the output replaces the beginning of the old content, the rest stays. -/
theorem C71_overwrites (old : Option Bytes) (writes : List Bytes) :
    contentAfter .output old writes = some (writes.flatten ++ (old.getD []).drop writes.flatten.length) := by
  cases old with
  | none => exact congrArg some (by simpa using writeChunks_over rfl rfl writes [] [])
  | some old => exact congrArg some (by simpa using writeChunks_over rfl rfl writes [] old)

/-- C71 fails exactly when the file was longer than what the command writes. -/
theorem C71_exactly_when (old : Option Bytes) (writes : List Bytes) :
    contentAfter .output old writes = some writes.flatten ↔ (old.getD []).length ≤ writes.flatten.length := by
  rw [C71_overwrites, Option.some.injEq]
  constructor
  · intro h
    have := congrArg List.length h
    simp only [List.length_append, List.length_drop] at this
    omega
  · intro h
    rw [List.drop_eq_nil_of_le h, List.append_nil]

/-- C71, the part that holds: the standard output of a command whose last output redirection is `> f` is the
file `f`, and if `f` did not exist or was not longer than the output, it then contains exactly what the
command wrote.  Missing: a longer file is not truncated (`C71_exactly_when`), and what is missing in C69
and C70. -/
theorem C71_output_partial (w : World) (hw : Resources w) (n : Nat) (s : Sh) (hp : AtPrompt w s) (c : RCmd)
    (hok : c.Ok s) (hk : c.Kept) (ho : ∀ r ∈ c.redirs, ∀ tr, w.openOk (tr ++ s.trace) r.op r.file = true)
    (file : Str) (hrun : ∀ tr, Runnable w s (tr ++ s.trace) c.name file) (f : Str)
    (hf : lastOn 1 c.redirs = some ⟨.output, .plain f, none⟩) :
    ∃ pid img evs op, Happened s (interactiveLine w (n + 1) c.text s).2 [.spawn pid (.exec img) evs] ∧
      chanOf img 1 = some (.file op f) ∧
      ∀ old writes, (old.getD []).length ≤ writes.flatten.length →
        contentAfter op old writes = some writes.flatten := by
  obtain ⟨pid, img, h1, -, -, h2⟩ := C69_exact w hw n s hp c hok hk ho file hrun
  refine ⟨pid, img, _, .output, h1, by rw [h2, hf]; rfl, fun old writes h => (C71_exactly_when old writes).2 h⟩

/-- C71 fails: the end of a longer file stays. -/
theorem C71_counterexample :
    contentAfter .output (some [1, 2, 3, 4]) [[7], [8]] = some [7, 8, 3, 4] := by decide

/-- C72: `>>` adds the output, in whatever pieces it is written, to the end of the file. -/
theorem C72_appends (old : Option Bytes) (writes : List Bytes) :
    contentAfter .append old writes = some (old.getD [] ++ writes.flatten) := by
  cases old with
  | none => exact congrArg some (by simpa using writeChunks_append rfl rfl writes [] 0)
  | some old => exact congrArg some (by simpa using writeChunks_append rfl rfl writes old 0)

/-- C72 for a command line: the standard output of a command whose last output redirection is `>> f` is the
file `f`, and it then contains its previous content followed by what the command wrote.  Missing: what is
missing in C69 and C70. -/
theorem C72_append_partial (w : World) (hw : Resources w) (n : Nat) (s : Sh) (hp : AtPrompt w s) (c : RCmd)
    (hok : c.Ok s) (hk : c.Kept) (ho : ∀ r ∈ c.redirs, ∀ tr, w.openOk (tr ++ s.trace) r.op r.file = true)
    (file : Str) (hrun : ∀ tr, Runnable w s (tr ++ s.trace) c.name file) (f : Str)
    (hf : lastOn 1 c.redirs = some ⟨.append, .plain f, none⟩) :
    ∃ pid img evs op, Happened s (interactiveLine w (n + 1) c.text s).2 [.spawn pid (.exec img) evs] ∧
      chanOf img 1 = some (.file op f) ∧
      ∀ old writes, contentAfter op old writes = some (old.getD [] ++ writes.flatten) := by
  obtain ⟨pid, img, h1, -, -, h2⟩ := C69_exact w hw n s hp c hok hk ho file hrun
  exact ⟨pid, img, _, .append, h1, by rw [h2, hf]; rfl, C72_appends⟩

/-- C72 fails for a command without arguments. -/
theorem C72_counterexample :
    startedFds (demo [cs!"ls >> f"]) = some [(0, .orig 0), (1, .orig 1), (2, .orig 2)] := by decide +kernel

example : lastOn 1 redirSample.redirs = some ⟨.append, .plain (cs!"b"), none⟩ ∧
    lastOn 1 (frontRedirs [.redir ⟨.append, .plain (cs!"a"), none⟩, .redir ⟨.output, .plain (cs!"b"), none⟩]) = some ⟨.output, .plain (cs!"b"), none⟩ := ⟨rfl, rfl⟩

/-! ## C76 -/

/-- What the code does with every assignment before an external command: the program's environment has the
text as typed, quotes included, up to its first `=`. -/
theorem C76_exact (w : World) (hw : Resources w) (n : Nat) (s : Sh) (hp : AtPrompt w s) (c : RCmd)
    (hok : c.Ok s) (hk : c.Kept) (ho : ∀ r ∈ c.redirs, ∀ tr, w.openOk (tr ++ s.trace) r.op r.file = true)
    (file : Str) (hrun : ∀ tr, Runnable w s (tr ++ s.trace) c.name file) :
    (∃ pid img evs, Happened s (interactiveLine w (n + 1) c.text s).2 [.spawn pid (.exec img) evs] ∧
      img.path = file ∧ img.argv = c.argv ∧
      ∀ y, img.env.get y = (lastAssigned y ((frontAssigns c.front).map cutValue)).or (s.env.get y)) ∧
    SameShell s (interactiveLine w (n + 1) c.text s).2 := by
  have h := rcmd_program hw n hp hok (by rw [RCmd.applied_kept hk]; exact ho) hrun
  obtain ⟨pid, img, h1, h2, h3, h4, -⟩ := h
  refine ⟨⟨pid, img, _, h1, h2, h3, h4⟩, ?_⟩
  exact C85_external w n [c.ext] false false s (by simpa using RCmd.ext_ok hok) _
    (TLine.text_ne (TCmd.line_ok (RCmd.tcmd_ok hok))) (RCmd.parse hok)

/-- C76, the part that holds: assignments of ordinary words before an external command, in any number, are
in the environment of the program (the last one of each name), everything else there is the shell's
environment; and the line changes no variable, function, alias or environment variable of the shell.
Missing: quoted values (`C76_exact`, `C76_counterexample`). -/
theorem C76_prefix_partial (w : World) (hw : Resources w) (n : Nat) (s : Sh) (hp : AtPrompt w s) (c : RCmd)
    (hok : c.Ok s) (hplain : ∀ a ∈ frontAssigns c.front, a.2 = .plain a.2.text) (hk : c.Kept)
    (ho : ∀ r ∈ c.redirs, ∀ tr, w.openOk (tr ++ s.trace) r.op r.file = true)
    (file : Str) (hrun : ∀ tr, Runnable w s (tr ++ s.trace) c.name file) :
    (∃ pid img evs, Happened s (interactiveLine w (n + 1) c.text s).2 [.spawn pid (.exec img) evs] ∧
      img.path = file ∧ img.argv = c.argv ∧
      ∀ y, img.env.get y = (lastAssigned y ((frontAssigns c.front).map typedValue)).or (s.env.get y)) ∧
    SameShell s (interactiveLine w (n + 1) c.text s).2 := by
  have e : (frontAssigns c.front).map typedValue = (frontAssigns c.front).map cutValue := by
    refine List.map_congr_left fun a ha => ?_
    have h1 := (hok.assigns a ha).2.1
    rw [hplain a ha] at h1
    have h2 := List.takeWhile_append_of_pos (p := fun d => decide (d ≠ '=')) (l₁ := a.2.text) (l₂ := []) fun d hd => by
      simpa using fun e : d = '=' => (h1.2.1 _ hd).2 (by rw [e]; decide)
    rw [List.append_nil, List.takeWhile_nil, List.append_nil] at h2
    unfold typedValue cutValue
    rw [h2]
  rw [e]
  exact C76_exact w hw n s hp c hok hk ho file hrun

/-- The environment a line starts its only program with. -/
def startedEnv (s : Sh) (x : Str) : Option Str :=
  match s.trace with
  | [.spawn _ (.exec img) _] => img.env.get x
  | _ => none

/-- C76 fails for quoted values: the quotes are a part of the value, and it ends at the first `=`. -/
theorem C76_counterexample :
    startedEnv (demo [cs!"A=1 ls"]) (cs!"A") = some (cs!"1") ∧
    startedEnv (demo [cs!"A='1' ls"]) (cs!"A") = some (cs!"'1'") ∧
    startedEnv (demo [cs!"A='x=y' ls"]) (cs!"A") = some (cs!"'x") := by decide +kernel

example : (∃ pid img evs, Happened (atPrompt []) (interactiveLine (demoWorld []) 20 redirSample.text (atPrompt [])).2
      [.spawn pid (.exec img) evs] ∧ img.env.get (cs!"A") = some (cs!"2")) ∧
    SameShell (atPrompt []) (interactiveLine (demoWorld []) 20 redirSample.text (atPrompt [])).2 := by
  obtain ⟨⟨pid, img, evs, h1, -, -, h3⟩, h4⟩ := C76_prefix_partial (demoWorld []) (demo_resources []) 19 (atPrompt [])
    (atPrompt_ok (by decide +kernel)) redirSample redirSample_ok (by decide) (.inl (by decide)) (by
      intro r hr tr
      simp only [redirSample, RCmd.redirs, frontRedirs, backRedirs, List.cons_append, List.nil_append, List.mem_cons,
        List.not_mem_nil, or_false] at hr
      rcases hr with rfl | rfl | rfl <;> rfl) _
    (fun tr => demo_runnable (by decide +kernel) (by decide) (by decide) _)
  exact ⟨⟨pid, img, evs, h1, (h3 _).trans rfl⟩, h4⟩

example : ∃ pid img evs, Happened (atPrompt []) (interactiveLine (demoWorld []) 20 oddSample.text (atPrompt [])).2
      [.spawn pid (.exec img) evs] ∧ img.env.get (cs!"B") = some (cs!"'x") := by
  obtain ⟨⟨pid, img, evs, h1, -, -, h3⟩, -⟩ := C76_exact (demoWorld []) (demo_resources []) 19 (atPrompt [])
    (atPrompt_ok (by decide +kernel)) oddSample oddSample_ok (.inl (by decide)) (by
      intro r hr tr
      simp only [oddSample_redirs, List.mem_cons, List.not_mem_nil, or_false] at hr
      rcases hr with rfl | rfl | rfl <;> rfl) _
    (fun tr => demo_runnable (by decide +kernel) (by decide) (by decide) _)
  exact ⟨pid, img, evs, h1, (h3 _).trans rfl⟩

end Rsh
