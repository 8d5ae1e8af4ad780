import Verif.Props.Fns

/-!
# Property C164: commands that do not exist
-/

namespace Rsh

open Spec

theorem existing_map {α β : Type} (f : α → β) : ∀ (gone : List Bool) (l : List α),
    (existing gone l).map f = existing gone (l.map f)
  | [], l => by simp [existing]
  | _ :: _, [] => by simp [existing]
  | true :: gone, a :: l => by simp [existing, existing_map f gone l]
  | false :: gone, a :: l => by simp [existing, existing_map f gone l]

/-- The programs that are run, with their arguments, are those of the pipelines that exist. -/
theorem Spec.FnRan.argvs {file : Str → Str} {s : Sh} {rs : List FnRun} {gs : List (List ExecImage)}
    (h : FnRan file s rs gs) : gs.flatten.map ExecImage.argv = rs.flatMap fun r => existing r.gone r.argvs := by
  induction h with
  | nil => rfl
  | snoc _ k ih => simp [existing_map, ih, k.argvs]

/-- The line ` nope || make a | nope | mail b ; A=1 nope >> log x && mail b`. -/
def Spec.fnVain : FnLine :=
  { first := .chain {
      first := .run ⟨cs!"nope", []⟩ []
      rest := [(.or, .run ⟨cs!"make", [.plain (cs!"a")]⟩ [⟨cs!"nope", []⟩, ⟨cs!"mail", [.plain (cs!"b")]⟩])] }
    rest := [.chain {
      first := .full ⟨⟨cs!"nope", [.plain (cs!"x")]⟩, [(cs!"A", cs!"1")], [(.append, cs!"log")]⟩ []
      rest := [(.and, .run ⟨cs!"mail", [.plain (cs!"b")]⟩ [])] }] }

example : fnVain.text = cs!" nope || make a | nope | mail b ; A=1 nope >> log x && mail b" := by decide +kernel

/-- The world of `fnWorld`, in which there is no `nope`. -/
def Spec.fnVainWorld : FnWorld := { fnWorld with missing := fun x => decide (x = cs!"nope") }

/-- There are five children, of which the second and the fourth become programs. -/
example : (fnVainWorld.session 1 fnStart [fnVain]).map (fun τ => (τ.ran, τ.started, τ.recorded)) =
      some ([⟨cs!"/", [], [[cs!"nope"]], [], [], [true]⟩,
        ⟨cs!"/", [], [[cs!"make", cs!"a"], [cs!"nope"], [cs!"mail", cs!"b"]], [], [], [false, true, false]⟩,
        ⟨cs!"/", [], [[cs!"nope", cs!"x"]], [[(cs!"A", cs!"1")]], [[(.append, cs!"log")]], [true]⟩], 5, 1) := by decide

/-- What the operating system reports in this example. -/
def Spec.fnVainReports : List WRes := ((fnVainWorld.session 1 fnStart [fnVain]).map (·.reported)).getD []

theorem fnVain_ok : FnOk (demoWorld []) fnVainWorld (fun _ => none) (atPrompt [] fnVainReports) [fnVain] := by
  have hwr : ∀ x, Writable (atPrompt [] fnVainReports).ctx x := by
    intro x i hi b hb
    have : ∀ i ∈ (atPrompt [] fnVainReports).ctx.stack,
        ∀ p ∈ ((atPrompt [] fnVainReports).ctx.heap i).vars, p.2.readonly = false := by decide +kernel
    exact this i hi _ (lookup_mem hb)
  have hpath : pathOf (atPrompt [] fnVainReports) = some (cs!"/bin") := by decide +kernel
  have cmd : ∀ e : MiniCmd, (e.name ∈ [cs!"make", cs!"mail", cs!"nope"] ∧ ∀ a ∈ e.args, a.Ok) →
      FnCmdOk (demoWorld []) fnVainWorld (atPrompt [] fnVainReports) e := by
    rintro ⟨x, as⟩ ⟨hx, ha⟩
    have : PlainWord x ∧ x ∉ builtins ∧ (atPrompt [] fnVainReports).aliases.get x = none ∧
        '\x00' ∉ x ∧ hasSub (cs!"::") x = false ∧ (fnVainWorld.file x ≠ none → endsWith (cs!"nope") (cs!"/bin/" ++ x) = false) := by
      clear ha
      replace hx : x ∈ [cs!"make", cs!"mail", cs!"nope"] := hx
      revert x
      decide +kernel
    obtain ⟨h1, h2, h3, h4, h5, h6⟩ := this
    refine ⟨h1, h2, h3, h4, unqualified_iff.2 h5, ha, fun p hp => ?_⟩
    replace h6 := h6 (by rw [show fnVainWorld.file x = some p from hp]; simp)
    simp only [fnVainWorld, fnWorld] at hp
    split at hp
    · cases hp
      exact demo_runnable hpath h6 h4
    · cases hp
  exact {
    prompt := atPrompt_ok (by decide +kernel)
    ps1 := by decide +kernel
    values := by
      intro i hi x b _ hb
      have : ∀ i ∈ (atPrompt [] fnVainReports).ctx.stack,
          ∀ p ∈ ((atPrompt [] fnVainReports).ctx.heap i).vars, CleanValue p.2.value := by decide +kernel
      exact this i hi _ (lookup_mem hb)
    params := fun i => hwr _
    defined := by
      intro f hf
      unfold Defined
      rw [CtxMgr.getFunction_unqualified _ hf]
      have : ∀ i ∈ (atPrompt [] fnVainReports).ctx.stack,
          ((atPrompt [] fnVainReports).ctx.heap i).funcs = [] := by
        decide +kernel
      rw [List.findSome?_eq_none_iff.2]
      · rfl
      · intro i hi
        unfold funcIn
        rw [this i hi]
        rfl
    bodies := fun f b h => nomatch h
    jobs := by decide +kernel
    noAlias := by decide +kernel
    msgs := ⟨rfl, fun _ => rfl⟩
    texts := fun _ _ h => nomatch h
    files := fun _ _ h => nomatch h
    absent := by
      intro x hx
      have hx : x = cs!"nope" := of_decide_eq_true hx
      subst hx
      refine ⟨_, hpath, fun tr ds hds d hd => ?_⟩
      rw [lists_iff, show splitOn ':' (cs!"/bin") = [cs!"/bin"] by decide] at hds
      subst hds
      rw [List.mem_singleton] at hd
      subst hd
      show (demoWorld []).isFile _ (cs!"/bin/nope") = false
      rfl
    res := demo_resources _
    pids := fun _ => rfl
    inj := fun i j h => by simpa [fnVainWorld, fnWorld] using h
    dirs := fun _ _ _ => rfl
    lines := by
      intro l hl i hi
      rw [List.mem_singleton.1 hl] at hi
      simp only [fnVain, FnLine.items, List.mem_cons, List.not_mem_nil, or_false] at hi
      have word : ∀ v, v = cs!"a" ∨ v = cs!"b" ∨ v = cs!"x" → (MiniWord.plain v).Ok := by
        rintro v (rfl | rfl | rfl) <;> exact ⟨by decide, by decide, trivial⟩
      have none : FnCmdOk (demoWorld []) fnVainWorld (atPrompt [] fnVainReports) ⟨cs!"nope", []⟩ :=
        cmd _ ⟨by decide, by simp⟩
      have one : ∀ x v, x ∈ [cs!"make", cs!"mail", cs!"nope"] → v = cs!"a" ∨ v = cs!"b" ∨ v = cs!"x" →
          FnCmdOk (demoWorld []) fnVainWorld (atPrompt [] fnVainReports) ⟨x, [.plain v]⟩ :=
        fun x v hx hv => cmd _ ⟨hx, by simpa using word v hv⟩
      rcases hi with rfl | rfl
      all_goals
        intro c hc t ht
        rw [List.mem_singleton.1 hc] at ht
        simp only [MiniChain.steps, List.map_cons, List.map_nil, List.mem_cons, List.not_mem_nil, or_false] at ht
        rcases ht with rfl | rfl
        all_goals
          intro e he
          simp only [List.mem_cons, List.not_mem_nil, or_false] at he
      · rw [he]; exact none
      · rcases he with rfl | rfl | rfl
        · exact one _ _ (by decide) (by decide)
        · exact none
        · exact one _ _ (by decide) (by decide)
      · rw [he]
        exact ⟨one _ _ (by decide) (by decide), by decide,
          by intro r hr; rw [List.mem_singleton.1 hr]; exact ⟨by decide, by decide, fun _ _ => rfl⟩, .inr (by simp)⟩
      · rw [he]; exact one _ _ (by decide) (by decide) }

/-- The hypotheses of `C164_session` are met; the line leads back to the prompt. -/
example : ∃ s', Visits (demoWorld []) (1 + 1) (atPrompt [] fnVainReports) [.line fnVain.text] s' ∧
    s'.exitStatus = 1 ∧ forks s'.trace = 5 ∧ s'.waits = [] ∧
    (execs s'.trace).map ExecImage.argv = [[cs!"make", cs!"a"], [cs!"mail", cs!"b"]] := by
  obtain ⟨τ, hτ, h1, h2, h3, h4, h5⟩ : ∃ τ, fnVainWorld.session 1 (.of (atPrompt [] fnVainReports) fun _ => none) [fnVain] =
        some τ ∧ (atPrompt [] fnVainReports).waits = τ.reported ++ [] ∧
      τ.recorded = 1 ∧ τ.ended = none ∧ τ.started = 5 ∧
      (τ.ran.flatMap fun r => existing r.gone r.argvs) = [[cs!"make", cs!"a"], [cs!"mail", cs!"b"]] := by
    have : ((fnVainWorld.session 1 (.of (atPrompt [] fnVainReports) fun _ => none) [fnVain]).any fun τ =>
      decide ((atPrompt [] fnVainReports).waits = τ.reported ++ [] ∧ τ.recorded = 1 ∧
        τ.ended = none ∧ τ.started = 5 ∧
        (τ.ran.flatMap fun r => existing r.gone r.argvs) = [[cs!"make", cs!"a"], [cs!"mail", cs!"b"]])) = true := by
      decide +kernel
    obtain ⟨τ, h1, h2⟩ := (Option.any_eq_true _ _).1 this
    exact ⟨τ, h1, of_decide_eq_true h2⟩
  obtain ⟨s', a1, -, -, -, -, a3, ⟨groups, g1, g2⟩, a4, -, -, a5, -⟩ := C164_session _ _ _ _ _ fnVain_ok _ (.texts _) 1 τ hτ [] h1 (by simp)
  refine ⟨s', (a1 h3).1, a3.trans h2, a4.trans h4, a5, ?_⟩
  rw [g2, List.map_append, g1.argvs, h5]
  decide +kernel

end Rsh
