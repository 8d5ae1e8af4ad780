import Verif.Props.Fns

/-!
# Property C164: a function within a pipeline
-/

namespace Rsh

open Spec

/-- The line ` into ( ) { cd /t ; y=2 } ; y=1 ; make $y | into | mail $y`. -/
def Spec.fnStages : FnLine :=
  { first := .define (cs!"into") { first := .cd (.plain (cs!"/t")) } [{ first := .assign (cs!"y") false (cs!"2") }]
    rest := [.chain { first := .assign (cs!"y") false (cs!"1") },
      .chain { first := .run ⟨cs!"make", [.var (cs!"y")]⟩ [⟨cs!"into", []⟩, ⟨cs!"mail", [.var (cs!"y")]⟩] }] }

example : fnStages.text = cs!" into ( ) { cd /t ; y=2 } ; y=1 ; make $y | into | mail $y" := by decide +kernel

/-- The function comes first, and the other two are connected: they run where it went to, but with the old value. -/
example : (fnWorld.session 1 fnStart [fnStages]).map (fun τ => (τ.ran, seen τ.scopes (cs!"y"), τ.recorded)) =
      some ([⟨cs!"/t", [], [[cs!"make", cs!"1"], [cs!"mail", cs!"1"]], [], [], [false, false]⟩], some (cs!"2"), 0) := by decide

/-- What the operating system reports in this example. -/
def Spec.fnStagesReports : List WRes := ((fnWorld.session 1 fnStart [fnStages]).map (·.reported)).getD []

theorem fnStages_ok : FnOk (demoWorld []) fnWorld (fun _ => none) (atPrompt [] fnStagesReports) [fnStages] := by
  have hwr : ∀ x, Writable (atPrompt [] fnStagesReports).ctx x := by
    intro x i hi b hb
    have : ∀ i ∈ (atPrompt [] fnStagesReports).ctx.stack,
        ∀ p ∈ ((atPrompt [] fnStagesReports).ctx.heap i).vars, p.2.readonly = false := by decide +kernel
    exact this i hi _ (lookup_mem hb)
  have hpath : pathOf (atPrompt [] fnStagesReports) = some (cs!"/bin") := by decide +kernel
  have cmd : ∀ e : MiniCmd, (e.name ∈ [cs!"make", cs!"mail", cs!"into"] ∧ ∀ a ∈ e.args, a.Ok) →
      FnCmdOk (demoWorld []) fnWorld (atPrompt [] fnStagesReports) e := by
    rintro ⟨x, as⟩ ⟨hx, ha⟩
    have : PlainWord x ∧ x ∉ builtins ∧ (atPrompt [] fnStagesReports).aliases.get x = none ∧
        '\x00' ∉ x ∧ hasSub (cs!"::") x = false ∧ endsWith (cs!"nope") (cs!"/bin/" ++ x) = false := by
      clear ha
      replace hx : x ∈ [cs!"make", cs!"mail", cs!"into"] := hx
      revert x
      decide +kernel
    obtain ⟨h1, h2, h3, h4, h5, h6⟩ := this
    refine ⟨h1, h2, h3, h4, unqualified_iff.2 h5, ha, fun p hp => ?_⟩
    simp only [fnWorld] at hp
    split at hp
    · cases hp
      exact demo_runnable hpath h6 h4
    · cases hp
  exact {
    prompt := atPrompt_ok (by decide +kernel)
    ps1 := by decide +kernel
    values := by
      intro i hi x b _ hb
      have : ∀ i ∈ (atPrompt [] fnStagesReports).ctx.stack,
          ∀ p ∈ ((atPrompt [] fnStagesReports).ctx.heap i).vars, CleanValue p.2.value := by decide +kernel
      exact this i hi _ (lookup_mem hb)
    params := fun i => hwr _
    defined := by
      intro f hf
      unfold Defined
      rw [CtxMgr.getFunction_unqualified _ hf]
      have : ∀ i ∈ (atPrompt [] fnStagesReports).ctx.stack,
          ((atPrompt [] fnStagesReports).ctx.heap i).funcs = [] := by
        decide +kernel
      rw [List.findSome?_eq_none_iff.2]
      · rfl
      · intro i hi
        unfold funcIn
        rw [this i hi]
        rfl
    bodies := fun f b h => nomatch h
    jobs := by decide +kernel
    noAlias := by decide +kernel
    msgs := ⟨rfl, fun _ => rfl⟩
    texts := fun _ _ h => nomatch h
    files := fun _ _ h => nomatch h
    absent := fun _ h => nomatch h
    res := demo_resources _
    pids := fun _ => rfl
    inj := fun i j h => by simpa [fnWorld] using h
    dirs := fun _ _ _ => rfl
    lines := by
      intro l hl i hi
      rw [List.mem_singleton.1 hl] at hi
      simp only [fnStages, FnLine.items, List.mem_cons, List.not_mem_nil, or_false] at hi
      have set : ∀ v, v = cs!"1" ∨ v = cs!"2" →
          FnStepOk (demoWorld []) fnWorld (atPrompt [] fnStagesReports) (.assign (cs!"y") false v) := by
        rintro v (rfl | rfl) <;>
          exact ⟨by decide, ⟨by decide, by decide, unqualified_iff.2 rfl, rfl⟩, by decide, by decide, by decide,
            by decide, by decide, hwr _⟩
      rcases hi with rfl | rfl | rfl
      · refine ⟨?_, by decide, unqualified_iff.2 rfl⟩
        intro c hc t ht
        simp only [List.mem_cons, List.not_mem_nil, or_false] at hc
        rcases hc with rfl | rfl <;> rw [List.mem_singleton.1 ht]
        · exact ⟨by decide, by decide, trivial⟩
        · exact set _ (.inr rfl)
      · intro c hc t ht
        rw [List.mem_singleton.1 hc] at ht
        rw [List.mem_singleton.1 ht]
        exact set _ (.inl rfl)
      · intro c hc t ht
        rw [List.mem_singleton.1 hc] at ht
        rw [List.mem_singleton.1 ht]
        have word : (MiniWord.var (cs!"y")).Ok := ⟨by decide, by decide, unqualified_iff.2 rfl⟩
        intro e he
        simp only [List.mem_cons, List.not_mem_nil, or_false] at he
        rcases he with rfl | rfl | rfl
        · exact cmd _ ⟨by decide, by simpa using word⟩
        · exact cmd _ ⟨by decide, by simp⟩
        · exact cmd _ ⟨by decide, by simpa using word⟩ }

/-- The hypotheses of `C164_session` are met; the line leads back to the prompt. -/
example : ∃ s', Visits (demoWorld []) (1 + 1) (atPrompt [] fnStagesReports) [.line fnStages.text] s' ∧
    valueOf s' (cs!"y") = some (cs!"2") ∧ s'.cwd = cs!"/t" ∧ s'.waits = [] := by
  obtain ⟨τ, hτ, h1, h2, h3, h4⟩ : ∃ τ, fnWorld.session 1 (.of (atPrompt [] fnStagesReports) fun _ => none) [fnStages] =
        some τ ∧ (atPrompt [] fnStagesReports).waits = τ.reported ++ [] ∧
      seen τ.scopes (cs!"y") = some (cs!"2") ∧ τ.ended = none ∧ τ.cwd = cs!"/t" := by
    have : ((fnWorld.session 1 (.of (atPrompt [] fnStagesReports) fun _ => none) [fnStages]).any fun τ =>
      decide ((atPrompt [] fnStagesReports).waits = τ.reported ++ [] ∧ seen τ.scopes (cs!"y") = some (cs!"2") ∧
        τ.ended = none ∧ τ.cwd = cs!"/t")) = true := by decide +kernel
    obtain ⟨τ, h1, h2⟩ := (Option.any_eq_true _ _).1 this
    exact ⟨τ, h1, of_decide_eq_true h2⟩
  obtain ⟨s', a1, -, a2, -, a3, -, -, -, -, -, a5, -⟩ := C164_session _ _ _ _ _ fnStages_ok _ (.texts _) 1 τ hτ [] h1 (by simp)
  exact ⟨s', (a1 h3).1, (a2 _ (unqualified_iff.2 rfl)).trans h2, a3.trans h4, a5⟩

end Rsh
