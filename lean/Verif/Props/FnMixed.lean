import Verif.Props.Fns

/-!
# Property C164: a function within a pipeline with redirections
-/

namespace Rsh

open Spec

/-- The line ` into ( ) { cd /t } ; A=1 make x | B=2 into < /nope y | mail >> log b`. -/
def Spec.fnMixed : FnLine :=
  { first := .define (cs!"into") { first := .cd (.plain (cs!"/t")) } []
    rest := [.chain {
        first := .full ⟨⟨cs!"make", [.plain (cs!"x")]⟩, [(cs!"A", cs!"1")], []⟩
          [⟨⟨cs!"into", [.plain (cs!"y")]⟩, [(cs!"B", cs!"2")], [(.input, cs!"/nope")]⟩,
            ⟨⟨cs!"mail", [.plain (cs!"b")]⟩, [], [(.append, cs!"log")]⟩] }] }

example : fnMixed.text = cs!" into ( ) { cd /t } ; A=1 make x | B=2 into < /nope y | mail >> log b" := by decide +kernel

/-- The function comes first: its assignment and its file, which cannot be opened, do not matter. The other two are
connected, the first one with its variable, the second one with its file. -/
example : (fnWorld.session 1 fnStart [fnMixed]).map (fun τ => (τ.ran, seen τ.scopes (cs!"B"), τ.recorded)) =
      some ([⟨cs!"/t", [], [[cs!"make", cs!"x"], [cs!"mail", cs!"b"]], [[(cs!"A", cs!"1")], []],
        [[], [(.append, cs!"log")]], [false, false]⟩], none, 0) := by decide

/-- What the operating system reports in this example. -/
def Spec.fnMixedReports : List WRes := ((fnWorld.session 1 fnStart [fnMixed]).map (·.reported)).getD []

theorem fnMixed_ok : FnOk (demoWorld []) fnWorld (fun _ => none) (atPrompt [] fnMixedReports) [fnMixed] := by
  have hwr : ∀ x, Writable (atPrompt [] fnMixedReports).ctx x := by
    intro x i hi b hb
    have : ∀ i ∈ (atPrompt [] fnMixedReports).ctx.stack,
        ∀ p ∈ ((atPrompt [] fnMixedReports).ctx.heap i).vars, p.2.readonly = false := by decide +kernel
    exact this i hi _ (lookup_mem hb)
  have hpath : pathOf (atPrompt [] fnMixedReports) = some (cs!"/bin") := by decide +kernel
  have cmd : ∀ e : MiniCmd, (e.name ∈ [cs!"make", cs!"mail", cs!"into"] ∧ ∀ a ∈ e.args, a.Ok) →
      FnCmdOk (demoWorld []) fnWorld (atPrompt [] fnMixedReports) e := by
    rintro ⟨x, as⟩ ⟨hx, ha⟩
    have : PlainWord x ∧ x ∉ builtins ∧ (atPrompt [] fnMixedReports).aliases.get x = none ∧
        '\x00' ∉ x ∧ hasSub (cs!"::") x = false ∧ endsWith (cs!"nope") (cs!"/bin/" ++ x) = false := by
      clear ha
      replace hx : x ∈ [cs!"make", cs!"mail", cs!"into"] := hx
      revert x
      decide +kernel
    obtain ⟨h1, h2, h3, h4, h5, h6⟩ := this
    refine ⟨h1, h2, h3, h4, unqualified_iff.2 h5, ha, fun p hp => ?_⟩
    simp only [fnWorld] at hp
    split at hp
    · cases hp
      exact demo_runnable hpath h6 h4
    · cases hp
  exact {
    prompt := atPrompt_ok (by decide +kernel)
    ps1 := by decide +kernel
    values := by
      intro i hi x b _ hb
      have : ∀ i ∈ (atPrompt [] fnMixedReports).ctx.stack,
          ∀ p ∈ ((atPrompt [] fnMixedReports).ctx.heap i).vars, CleanValue p.2.value := by decide +kernel
      exact this i hi _ (lookup_mem hb)
    params := fun i => hwr _
    defined := by
      intro f hf
      unfold Defined
      rw [CtxMgr.getFunction_unqualified _ hf]
      have : ∀ i ∈ (atPrompt [] fnMixedReports).ctx.stack,
          ((atPrompt [] fnMixedReports).ctx.heap i).funcs = [] := by
        decide +kernel
      rw [List.findSome?_eq_none_iff.2]
      · rfl
      · intro i hi
        unfold funcIn
        rw [this i hi]
        rfl
    bodies := fun f b h => nomatch h
    jobs := by decide +kernel
    noAlias := by decide +kernel
    msgs := ⟨rfl, fun _ => rfl⟩
    texts := fun _ _ h => nomatch h
    files := fun _ _ h => nomatch h
    absent := fun _ h => nomatch h
    res := demo_resources _
    pids := fun _ => rfl
    inj := fun i j h => by simpa [fnWorld] using h
    dirs := fun _ _ _ => rfl
    lines := by
      intro l hl i hi
      rw [List.mem_singleton.1 hl] at hi
      simp only [fnMixed, FnLine.items, List.mem_cons, List.not_mem_nil, or_false] at hi
      rcases hi with rfl | rfl
      · refine ⟨?_, by decide, unqualified_iff.2 rfl⟩
        intro c hc t ht
        rw [List.mem_singleton.1 hc] at ht
        rw [List.mem_singleton.1 ht]
        exact ⟨by decide, by decide, trivial⟩
      · intro c hc t ht
        rw [List.mem_singleton.1 hc] at ht
        rw [List.mem_singleton.1 ht]
        have word : ∀ x, Typed.Ok (.plain x) → '\x00' ∉ x → (MiniWord.plain x).Ok := fun x h1 h2 => ⟨h1, h2, trivial⟩
        intro e he
        simp only [List.mem_cons, List.not_mem_nil, or_false] at he
        rcases he with rfl | rfl | rfl
        · exact ⟨cmd _ ⟨by decide, by simpa using word _ (by decide) (by decide)⟩, by decide, nofun, .inl rfl⟩
        · exact ⟨cmd _ ⟨by decide, by simpa using word _ (by decide) (by decide)⟩, by decide,
            by intro r hr; rw [List.mem_singleton.1 hr]; exact ⟨by decide, by decide, nofun⟩, .inr (by simp)⟩
        · exact ⟨cmd _ ⟨by decide, by simpa using word _ (by decide) (by decide)⟩, nofun,
            by intro r hr; rw [List.mem_singleton.1 hr]; exact ⟨by decide, by decide, fun _ _ => rfl⟩, .inr (by simp)⟩ }

/-- The hypotheses of `C164_session` are met; the line leads back to the prompt. -/
example : ∃ s', Visits (demoWorld []) (1 + 1) (atPrompt [] fnMixedReports) [.line fnMixed.text] s' ∧
    valueOf s' (cs!"B") = none ∧ s'.cwd = cs!"/t" ∧ s'.waits = [] := by
  obtain ⟨τ, hτ, h1, h2, h3, h4⟩ : ∃ τ, fnWorld.session 1 (.of (atPrompt [] fnMixedReports) fun _ => none) [fnMixed] =
        some τ ∧ (atPrompt [] fnMixedReports).waits = τ.reported ++ [] ∧
      seen τ.scopes (cs!"B") = none ∧ τ.ended = none ∧ τ.cwd = cs!"/t" := by
    have : ((fnWorld.session 1 (.of (atPrompt [] fnMixedReports) fun _ => none) [fnMixed]).any fun τ =>
      decide ((atPrompt [] fnMixedReports).waits = τ.reported ++ [] ∧ seen τ.scopes (cs!"B") = none ∧
        τ.ended = none ∧ τ.cwd = cs!"/t")) = true := by decide +kernel
    obtain ⟨τ, h1, h2⟩ := (Option.any_eq_true _ _).1 this
    exact ⟨τ, h1, of_decide_eq_true h2⟩
  obtain ⟨s', a1, -, a2, -, a3, -, -, -, -, -, a5, -⟩ := C164_session _ _ _ _ _ fnMixed_ok _ (.texts _) 1 τ hτ [] h1 (by simp)
  exact ⟨s', (a1 h3).1, (a2 _ (unqualified_iff.2 rfl)).trans h2, a3.trans h4, a5⟩

end Rsh
