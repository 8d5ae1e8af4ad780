import Verif.Proofs.Mini
import Verif.Props.Reference

/-!
# Property C162: sessions with variables and directories
-/

namespace Rsh

open Spec

theorem MiniStep.typed_ok {w : World} {file : Str → Str} {s : Sh} {t : MiniStep} (h : t.Ok w file s) :
    ∀ d ∈ t.typed.cmds, d.Ok := by
  intro d hd
  have hcmd : ∀ c : MiniCmd, c.Ok w file s → c.typed.Ok := by
    intro c hc
    refine ⟨by simp [MiniCmd.typed], by simp [MiniCmd.typed], ?_, ?_, by simp [MiniCmd.typed]⟩
    · intro t ht
      cases ht
      exact hc.plain
    · intro p hp
      obtain ⟨a, ha, rfl⟩ := List.mem_map.1 hp
      exact (hc.args a ha).1
  cases t with
  | assign x q v =>
    simp only [MiniStep.typed, TPipe.cmds, List.mem_cons, List.not_mem_nil, or_false] at hd
    subst hd
    exact assignment_ok h.1 h.2.2.2.1
  | cd a =>
    simp only [MiniStep.typed, TPipe.cmds, List.mem_cons, List.not_mem_nil, or_false] at hd
    subst hd
    refine ⟨by simp, by simp, ?_, ?_, by simp⟩
    · intro t ht
      cases ht
      show PlainWord (cs!"cd")
      decide
    · intro p hp
      simp only [List.mem_cons, List.not_mem_nil, or_false] at hp
      subst hp
      exact h.1
  | run c cs =>
    have : d ∈ (c :: cs).map MiniCmd.typed := hd
    obtain ⟨e, he, rfl⟩ := List.mem_map.1 this
    exact hcmd e (h e he)
  | «export» x q v => exact h.elim
  | unset x g => exact h.elim
  | exit c => exact h.elim
  | source d p as => exact h.elim
  | eval a as => exact h.elim
  | full c cs => exact h.elim
  | «return» c => exact h.elim
  | pwd => exact h.elim
  | other b => exact h.elim

theorem MiniLine.typed_ok {w : World} {file : Str → Str} {s : Sh} {l : MiniLine}
    (h : ∀ c ∈ l.chains, ∀ t ∈ c.steps, t.Ok w file s) :
    TLine.Ok { first := l.first.typed, rest := l.rest.map MiniChain.typed } := by
  intro d hd
  simp only [TLine.cmds, List.mem_flatMap, ← List.map_cons] at hd
  obtain ⟨t, ht, hd⟩ := hd
  obtain ⟨c, hm, rfl⟩ := List.mem_map.1 ht
  simp only [MiniChain.typed, List.mem_append, List.mem_flatMap, List.mem_map] at hd
  rcases hd with hd | ⟨_, ⟨l, hl, rfl⟩, hd⟩
  · exact MiniStep.typed_ok (h c hm c.first List.mem_cons_self) d hd
  · exact MiniStep.typed_ok (h c hm l.2 (List.mem_cons_of_mem _ (List.mem_map_of_mem hl))) d hd

theorem Sim.printed {u : MiniWorld} {file : Str → Str} {all : List WRes} {s0 : Sh} {σ : MiniState} {s : Sh}
    (h : Sim u file all s0 σ s) (c : Option Chan) (t : Str) :
    Sim u file all s0 σ { s with trace := .print c t :: s.trace } := by
  obtain ⟨h1, h2, h3, h4, h5, h6, h7, h8, h9, h10, h11, h12, h13, h14⟩ := h
  exact ⟨h1.trans rfl, h2, h3, h4, h5, h6, h7, h8, h9, h10, h11, h12, h13, h14⟩

theorem mini_session {w : World} {u : MiniWorld} {file : Str → Str} {all : List WRes} {s0 : Sh} (S : MiniSetting w u s0)
    (n : Nat) (lines : List MiniLine) :
    ∀ {σ : MiniState} {s : Sh}, Sim u file all s0 σ s → (∀ l ∈ lines, ∀ c ∈ l.chains, ∀ t ∈ c.steps, t.Ok w file s0) →
      Begins all (u.session σ lines) →
      ∃ s', Visits w (n + 1) s (lines.map fun l => .line l.text) s' ∧ Sim u file all s0 (u.session σ lines) s' := by
  induction lines with
  | nil =>
    intro σ s h _ _
    exact ⟨s, .nil, h⟩
  | cons l lines ih =>
    intro σ s h hok hb
    obtain ⟨ps, hps1⟩ : ∃ ps, valueOf s (cs!"PS1") = some ps := by
      cases e : valueOf s (cs!"PS1") with
      | none => exact absurd e h.ps1
      | some ps => exact ⟨ps, rfl⟩
    have hpr := prompt_some hps1
    have h1 := (h.printed ((s.fds.get 1).map FdE.chan) ps).restated (σ' := { σ with stopped := false }) rfl rfl rfl rfl rfl rfl
    generalize hs1 : ({ s with trace := .print ((s.fds.get 1).map FdE.chan) ps :: s.trace } : Sh) = s1 at hpr h1
    have hb1 : Begins all (u.line σ l) := hb.before (later_foldl (later_line u) lines (u.line σ l))
    obtain ⟨o, s2, a1, a2, a3⟩ := mini_chains S (evalFuel w n) l.chains (st := -1) h1 rfl (hok l List.mem_cons_self) hb1
    have htl : TLine.Ok { first := l.first.typed, rest := l.rest.map MiniChain.typed } :=
      MiniLine.typed_ok (hok l List.mem_cons_self)
    have e1 : evalTop w (n + 1) (some (TLine.tree { first := l.first.typed, rest := l.rest.map MiniChain.typed })) s1 =
        (o, s2) := by
      show evalListFrom w (evalFuel w n) (-1) _ s1 = _
      have : TLine.tree { first := l.first.typed, rest := l.rest.map MiniChain.typed } =
          l.chains.map fun c => c.typed.tree := by
        simp [TLine.tree, MiniLine.chains, Function.comp_def]
      rw [this]
      exact a1
    obtain ⟨s3, b1, b2⟩ : ∃ s3, interactiveLine w (n + 1) l.text s1 = (.ok (), s3) ∧
        Sim u file all s0 (u.line σ l) s3 := by
      unfold interactiveLine MiniLine.text
      rw [if_neg (TLine.text_ne htl), parse_tline htl]
      simp only
      rcases a2 with ⟨r, rfl⟩ | ⟨e, rfl⟩
      · exact ⟨s2, by rw [run_bind_ok (run_tryE_ok e1)]; rfl, a3⟩
      · exact ⟨_, by rw [run_bind_ok (run_tryE_err e1)]; rfl, a3.printed _ _⟩
    obtain ⟨s', c1, c2⟩ := ih b2 (fun l' h => hok l' (List.mem_cons_of_mem _ h)) hb
    refine ⟨s', .cons ?_ c1, c2⟩
    show (do prompt; interactiveLine w (n + 1) l.text : M Unit) s = _
    rw [run_bind_ok hpr]
    exact b1

/-- The shell at the prompt, when there are no jobs; the lines are typed properly; the outside world is as the reference
assumes. -/
structure Spec.MiniOk (w : World) (u : MiniWorld) (file : Str → Str) (s : Sh) (lines : List MiniLine) : Prop where
  prompt : AtPrompt w s
  ps1 : valueOf s (cs!"PS1") ≠ none
  values : ∀ x v, Unqualified x → valueOf s x = some v → CleanValue v
  jobs : s.jc.table = []
  noAlias : s.aliases.get [] = none ∧ s.aliases.get (cs!"cd") = none
  res : Resources w
  pids : ∀ tr, w.fork tr = some (u.pid (forks tr))
  inj : ∀ i j, u.pid i = u.pid j → i = j
  dirs : ∀ tr c d, w.chdir tr c d = u.dirs c d
  lines : ∀ l ∈ lines, ∀ c ∈ l.chains, ∀ t ∈ c.steps, t.Ok w file s

/-- The state of the reference for a shell. -/
def Spec.MiniState.of (s : Sh) : MiniState :=
  { vars := valueOf s, cwd := s.cwd, status := s.exitStatus, recorded := s.exitStatus, started := forks s.trace }

/-- C162: lines of assignments, changes of directory and pipelines of external commands with arguments that are words,
quoted texts or variables, joined by `&&`, `||` and `;`, typed while there are no jobs: if the `k`-th process of the
session exits with the status `code k`, and a change of directory leads where `dirs` says, then the shell runs the
pipelines that a small reference interpreter runs, in the same order, each with the arguments and in the directory the
reference gives; no other process is started.  Each line leads back to the prompt; in the end the variables, the
directory and the status are those of the reference. -/
theorem C162_session (w : World) (u : MiniWorld) (file : Str → Str) (s : Sh) (lines : List MiniLine)
    (h : MiniOk w u file s lines) (n : Nat) (rest : List WRes)
    (hw : s.waits = (u.session (.of s) lines).reported ++ rest) (hr : .eintr ∉ rest) :
    ∃ s', Visits w (n + 1) s (lines.map fun l => .line l.text) s' ∧
      (∀ ins, interactiveLoop w (n + 1) ((lines.map fun l => .line l.text) ++ ins) s = interactiveLoop w (n + 1) ins s') ∧
      (∀ x, Unqualified x → valueOf s' x = (u.session (.of s) lines).vars x) ∧
      s'.cwd = (u.session (.of s) lines).cwd ∧
      s'.exitStatus = (u.session (.of s) lines).recorded ∧
      (∃ groups, MiniRan file s (u.session (.of s) lines).ran groups ∧
        execs s'.trace = execs s.trace ++ groups.flatten) ∧
      forks s'.trace = (u.session (.of s) lines).started ∧
      s'.jc.table = [] ∧ s'.waits = rest ∧
      s'.aliases = s.aliases ∧ s'.env = s.env ∧ s'.fds = s.fds ∧ s'.disp = s.disp ∧
      ∀ f, s'.ctx.isFunction f = s.ctx.isFunction f := by
  have S : MiniSetting w u s := {
    res := h.res
    pids := h.pids
    inj := h.inj
    dirs := h.dirs
    fds := AtPrompt_resources_fds h.res h.prompt
    held := (AtPrompt_own h.prompt).2.1
    own := (AtPrompt_own h.prompt).2.2
    stack := (AtPrompt_good h.prompt).1
    noAlias := h.noAlias }
  have start : Sim u file s.waits s (.of s) s := {
    same := rfl
    vars := fun _ _ => rfl
    clean := h.values
    cwd := rfl
    status := rfl
    started := rfl
    table := h.jobs
    path := rfl
    funcs := fun _ => rfl
    stack := rfl
    writable := fun _ _ h => h
    ps1 := h.ps1
    ran := ⟨[], .nil, by simp⟩
    waits := rfl }
  obtain ⟨s', a1, a2⟩ := mini_session S n lines start h.lines ⟨rest, hw, hr⟩
  have hsame := a2.same
  unfold MiniSame at hsame
  refine ⟨s', a1, loop_visits a1 (by simp [GoesOnAfter]), a2.vars, a2.cwd, a2.status, a2.ran, a2.started, a2.table, ?_,
    by rw [hsame], by rw [hsame], by rw [hsame], by rw [hsame], a2.funcs⟩
  have := a2.waits
  rw [hw] at this
  exact List.append_cancel_left this

/-! An example. -/

/-- The lines `x='a b' ; cd /src && make $x || mail $y`, `cd /nope ; ls` and `cd $x && ls | wc`. -/
def Spec.miniLines : List MiniLine :=
  [{ first := { first := .assign (cs!"x") true (cs!"a b") }
     rest := [{ first := .cd (.plain (cs!"/src")),
                rest := [(.and, .run ⟨cs!"make", [.var (cs!"x")]⟩ []), (.or, .run ⟨cs!"mail", [.var (cs!"y")]⟩ [])] }] },
   { first := { first := .cd (.quoted (cs!"/nope")) }, rest := [{ first := .run ⟨cs!"ls", []⟩ [] }] },
   { first := { first := .cd (.var (cs!"x")), rest := [(.and, .run ⟨cs!"ls", []⟩ [⟨cs!"wc", []⟩])] } }]

/-- The first process exits with 2, the others with 0. -/
def Spec.miniWorld : MiniWorld where
  pid := (100 + ·)
  code k := if k = 0 then 2 else 0
  dirs _ d := if d = cs!"/nope" then none else some d

example : miniLines.map MiniLine.text =
    [cs!" x='a b' ; cd /src && make $x || mail $y", cs!" cd '/nope' ; ls", cs!" cd $x && ls | wc"] := by decide

/-- What is run: `ls` of the second line is not, as there is no such directory. -/
def Spec.miniStart : MiniState := { vars := fun _ => none, cwd := cs!"/", status := 0, recorded := 0, started := 0 }

example : (miniWorld.session miniStart miniLines).ran =
      [(cs!"/src", [[cs!"make", cs!"a b"]]), (cs!"/src", [[cs!"mail", cs!"$y"]]), (cs!"a b", [[cs!"ls"], [cs!"wc"]])] ∧
    (miniWorld.session miniStart miniLines).recorded = 0 ∧
    (miniWorld.session miniStart miniLines).reported = [.st (.exited 100 2), .err, .st (.exited 101 0), .err,
      .st (.exited 102 0), .st (.exited 103 0), .err] := by decide

/-- Values are clean if those in all contexts are. -/
theorem clean_of_contexts {s : Sh} (h : ∀ i ∈ s.ctx.stack, ∀ p ∈ (s.ctx.heap i).vars, CleanValue p.2.value) (x v : Str)
    (hx : Unqualified x) (hv : valueOf s x = some v) : CleanValue v := by
  unfold valueOf at hv
  rw [CtxMgr.getVar_unqualified _ hx] at hv
  obtain ⟨b, hb, rfl⟩ := Option.map_eq_some_iff.1 hv
  obtain ⟨i, hi, e⟩ := List.exists_of_findSome?_eq_some hb
  unfold varIn at e
  have : (x, b) ∈ (s.ctx.heap i).vars := by
    rw [List.lookup_eq_some_iff] at e
    obtain ⟨l1, l2, e, -⟩ := e
    rw [e]
    simp
  exact h i hi _ this

/-- What the operating system reports in this example. -/
def Spec.miniReports : List WRes := (miniWorld.session miniStart miniLines).reported

theorem miniLines_ok : MiniOk (demoWorld []) miniWorld (cs!"/bin/" ++ ·) (atPrompt [] miniReports) miniLines where
  prompt := atPrompt_ok (by decide +kernel)
  ps1 := by decide +kernel
  values := clean_of_contexts (by decide +kernel)
  jobs := by decide +kernel
  noAlias := by decide +kernel
  res := demo_resources []
  pids _ := rfl
  inj i j h := by simpa [miniWorld] using h
  dirs _ _ _ := rfl
  lines l hl c hc t ht := by
    have hpath : pathOf (atPrompt [] miniReports) = some (cs!"/bin") := by decide +kernel
    have cmd : ∀ e : MiniCmd, (e.name ∈ [cs!"make", cs!"mail", cs!"ls", cs!"wc"] ∧ ∀ a ∈ e.args, a.Ok) →
        e.Ok (demoWorld []) (cs!"/bin/" ++ ·) (atPrompt [] miniReports) := by
      rintro ⟨x, as⟩ ⟨hx, ha⟩
      have : PlainWord x ∧ x ∉ builtins ∧ (atPrompt [] miniReports).aliases.get x = none ∧
          (atPrompt [] miniReports).ctx.isFunction x = false ∧ '\x00' ∉ x ∧
          endsWith (cs!"nope") (cs!"/bin/" ++ x) = false := by
        clear ha
        replace hx : x ∈ [cs!"make", cs!"mail", cs!"ls", cs!"wc"] := hx
        revert x
        decide +kernel
      obtain ⟨h1, h2, h3, h4, h5, h6⟩ := this
      exact ⟨h1, h2, h3, h4, h5, ha, demo_runnable hpath h6 h5⟩
    have word : ∀ x, Typed.Ok (.var x) → '\x00' ∉ x → hasSub (cs!"::") x = false → (MiniWord.var x).Ok := by
      intro x h1 h2 h3
      exact ⟨h1, by simpa [MiniWord.typed, Typed.text] using h2, unqualified_iff.2 h3⟩
    simp only [miniLines, List.mem_cons, List.not_mem_nil, or_false] at hl
    rcases hl with rfl | rfl | rfl <;> simp only [MiniLine.chains, List.mem_cons, List.not_mem_nil, or_false] at hc
    · rcases hc with rfl | rfl <;> simp only [MiniChain.steps, List.map_cons, List.map_nil, List.mem_cons,
        List.not_mem_nil, or_false] at ht
      · subst ht
        exact ⟨by decide, ⟨by decide, by decide, unqualified_iff.2 rfl, rfl⟩, by decide, by decide, by decide, by decide,
          by decide, by
            rw [show (atPrompt [] miniReports).ctx.getVar (cs!"x") = none by decide +kernel]
            exact fun _ h => (nomatch h)⟩
      · rcases ht with rfl | rfl | rfl
        · exact ⟨by decide, by decide, trivial⟩
        · intro e he
          simp only [List.mem_cons, List.not_mem_nil, or_false] at he
          subst he
          exact cmd _ ⟨by decide, by simpa using word _ (by decide) (by decide) (by decide)⟩
        · intro e he
          simp only [List.mem_cons, List.not_mem_nil, or_false] at he
          subst he
          exact cmd _ ⟨by decide, by simpa using word _ (by decide) (by decide) (by decide)⟩
    · rcases hc with rfl | rfl <;> simp only [MiniChain.steps, List.map_nil, List.mem_cons,
        List.not_mem_nil, or_false] at ht
      · subst ht
        exact ⟨by decide, by decide, trivial⟩
      · subst ht
        intro e he
        simp only [List.mem_cons, List.not_mem_nil, or_false] at he
        subst he
        exact cmd _ ⟨by decide, by simp⟩
    · subst hc
      simp only [MiniChain.steps, List.map_cons, List.map_nil, List.mem_cons, List.not_mem_nil, or_false] at ht
      rcases ht with rfl | rfl
      · exact word _ (by decide) (by decide) (by decide)
      · intro e he
        simp only [List.mem_cons, List.not_mem_nil, or_false] at he
        rcases he with rfl | rfl
        · exact cmd _ ⟨by decide, by simp⟩
        · exact cmd _ ⟨by decide, by simp⟩

/-- The hypotheses are met. -/
example : ∃ s', Visits (demoWorld []) (19 + 1) (atPrompt [] miniReports) (miniLines.map fun l => .line l.text) s' ∧
    valueOf s' (cs!"x") = some (cs!"a b") ∧ s'.cwd = cs!"a b" ∧ s'.exitStatus = 0 ∧ s'.waits = [] := by
  obtain ⟨s', a1, -, a2, a3, a4, -, -, -, a5, -⟩ := C162_session _ _ _ _ miniLines miniLines_ok 19 []
    (by rw [List.append_nil]; decide +kernel) (by simp)
  exact ⟨s', a1, (a2 _ (unqualified_iff.2 rfl)).trans (by decide +kernel), a3.trans (by decide +kernel),
    a4.trans (by decide +kernel), a5⟩

/-- Words in double quotes and with quotes in the middle are properly typed, and what the reference says of them is what the
shell does. -/
example : (MiniWord.double (cs!"a b$1c")).Ok ∧ (MiniWord.mixed (cs!"x\"y")).Ok ∧
    started (demo [cs!"ls \"a b$1c\" x\"y"]).trace =
      [cs!"ls" :: [MiniWord.double (cs!"a b$1c"), .mixed (cs!"x\"y")].map (MiniWord.value fun _ => some (cs!"v"))] ∧
    MiniWord.value (fun _ => some (cs!"v")) (.double (cs!"a b$1c")) = cs!"a b$c" := by
  refine ⟨⟨by decide, by decide, by decide, fun a b e => ?_, by decide⟩, ⟨by decide, by decide, trivial⟩, by decide +kernel,
    by decide⟩
  have : hasSub (cs!"$(") (cs!"a b$1c") = true := (hasSub_iff _ _).2 ⟨a, b, by simpa using e⟩
  exact absurd this (by decide)

end Rsh
