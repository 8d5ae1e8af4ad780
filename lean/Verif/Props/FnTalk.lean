import Verif.Props.Fns

/-!
# Property C164: what the shell itself writes
-/

namespace Rsh

open Spec

/-- The lines ` into ( ) { cd $1 ; pwd ; make } ; into /t`, ` cd /nope ; pwd`, ` pwd`, ` jobs ; fg %1 || pwd` and
` return && unset -v y && . ; pwd`. -/
def Spec.fnTalks : List FnLine :=
  [{ first := .define (cs!"into") { first := .cd (.var (cs!"1")) } [{ first := .pwd }, { first := .run ⟨cs!"make", []⟩ [] }]
     rest := [.chain { first := .run ⟨cs!"into", [.plain (cs!"/t")]⟩ [] }] },
   { first := .chain { first := .cd (.plain (cs!"/nope")) }, rest := [.chain { first := .pwd }] },
   { first := .chain { first := .pwd } },
   { first := .chain { first := .other .jobs }, rest := [.chain { first := .other (.resume false 1), rest := [(.or, .pwd)] }] },
   { first := .chain { first := .other .return, rest := [(.and, .unset (cs!"y") true), (.and, .other (.source true))] }, rest := [.chain { first := .pwd }] }]

example : fnTalks.map FnLine.text =
    [cs!" into ( ) { cd $1 ; pwd ; make } ; into /t", cs!" cd /nope ; pwd", cs!" pwd", cs!" jobs ; fg %1 || pwd",
      cs!" return && unset -v y && . ; pwd"] := by decide +kernel

/-- How the lines are typed: a comment comes between. -/
def Spec.fnTalksTyped : List Str :=
  [cs!" into ( ) { cd $1 ; pwd ; make } ; into /t", cs!"# nothing", cs!"cd  /nope; pwd", cs!"pwd", cs!"jobs ; fg %1 || pwd",
    cs!"return && unset -v y && .; pwd"]

/-- What the operating system reports in this example. -/
def Spec.fnTalksReports : List WRes := ((fnWorld.session 1 fnStart fnTalks).map (·.reported)).getD []

theorem fnTalks_ok : FnOk (demoWorld []) fnWorld (fun _ => none) (atPrompt [] fnTalksReports) fnTalks := by
  have hwr : ∀ x, Writable (atPrompt [] fnTalksReports).ctx x := by
    intro x i hi b hb
    have : ∀ i ∈ (atPrompt [] fnTalksReports).ctx.stack,
        ∀ p ∈ ((atPrompt [] fnTalksReports).ctx.heap i).vars, p.2.readonly = false := by decide +kernel
    exact this i hi _ (lookup_mem hb)
  have hpath : pathOf (atPrompt [] fnTalksReports) = some (cs!"/bin") := by decide +kernel
  have cmd : ∀ e : MiniCmd, (e.name ∈ [cs!"make", cs!"into"] ∧ ∀ a ∈ e.args, a.Ok) →
      FnCmdOk (demoWorld []) fnWorld (atPrompt [] fnTalksReports) e := by
    rintro ⟨x, as⟩ ⟨hx, ha⟩
    have : PlainWord x ∧ x ∉ builtins ∧ (atPrompt [] fnTalksReports).aliases.get x = none ∧
        '\x00' ∉ x ∧ hasSub (cs!"::") x = false ∧ endsWith (cs!"nope") (cs!"/bin/" ++ x) = false := by
      clear ha
      replace hx : x ∈ [cs!"make", cs!"into"] := hx
      revert x
      decide +kernel
    obtain ⟨h1, h2, h3, h4, h5, h6⟩ := this
    refine ⟨h1, h2, h3, h4, unqualified_iff.2 h5, ha, fun p hp => ?_⟩
    simp only [fnWorld] at hp
    split at hp
    · cases hp
      exact demo_runnable hpath h6 h4
    · cases hp
  exact {
    prompt := atPrompt_ok (by decide +kernel)
    ps1 := by decide +kernel
    values := by
      intro i hi x b _ hb
      have : ∀ i ∈ (atPrompt [] fnTalksReports).ctx.stack,
          ∀ p ∈ ((atPrompt [] fnTalksReports).ctx.heap i).vars, CleanValue p.2.value := by decide +kernel
      exact this i hi _ (lookup_mem hb)
    params := fun i => hwr _
    defined := by
      intro f hf
      unfold Defined
      rw [CtxMgr.getFunction_unqualified _ hf]
      have : ∀ i ∈ (atPrompt [] fnTalksReports).ctx.stack,
          ((atPrompt [] fnTalksReports).ctx.heap i).funcs = [] := by
        decide +kernel
      rw [List.findSome?_eq_none_iff.2]
      · rfl
      · intro i hi
        unfold funcIn
        rw [this i hi]
        rfl
    bodies := fun f b h => nomatch h
    jobs := by decide +kernel
    noAlias := by decide +kernel
    msgs := ⟨rfl, fun _ => rfl⟩
    texts := fun _ _ h => nomatch h
    files := fun _ _ h => nomatch h
    absent := fun _ h => nomatch h
    res := demo_resources _
    pids := fun _ => rfl
    inj := fun i j h => by simpa [fnWorld] using h
    dirs := fun _ _ _ => rfl
    lines := by
      have word : ∀ x, Typed.Ok (.plain x) → '\x00' ∉ x → (MiniWord.plain x).Ok := fun x h1 h2 => ⟨h1, h2, trivial⟩
      intro l hl i hi
      simp only [fnTalks, List.mem_cons, List.not_mem_nil, or_false] at hl
      rcases hl with rfl | rfl | rfl | rfl | rfl <;> simp only [FnLine.items, List.mem_cons, List.not_mem_nil, or_false] at hi
      · rcases hi with rfl | rfl
        · refine ⟨?_, by decide, unqualified_iff.2 rfl⟩
          intro c hc t ht
          simp only [List.mem_cons, List.not_mem_nil, or_false] at hc
          rcases hc with rfl | rfl | rfl <;> rw [List.mem_singleton.1 ht]
          · exact ⟨by decide, by decide, unqualified_iff.2 rfl⟩
          · trivial
          · intro e he
            rw [List.mem_singleton.1 he]
            exact cmd _ ⟨by decide, nofun⟩
        · intro c hc t ht
          rw [List.mem_singleton.1 hc] at ht
          rw [List.mem_singleton.1 ht]
          intro e he
          rw [List.mem_singleton.1 he]
          exact cmd _ ⟨by decide, by simpa using word _ (by decide) (by decide)⟩
      · rcases hi with rfl | rfl <;> intro c hc t ht <;> rw [List.mem_singleton.1 hc] at ht <;> rw [List.mem_singleton.1 ht]
        · exact word _ (by decide) (by decide)
        · trivial
      · rw [hi]
        intro c hc t ht
        rw [List.mem_singleton.1 hc] at ht
        rw [List.mem_singleton.1 ht]
        trivial
      · rcases hi with rfl | rfl <;> intro c hc t ht <;> rw [List.mem_singleton.1 hc] at ht
        · rw [List.mem_singleton.1 ht]
          exact ⟨by decide +kernel, by decide, nofun⟩
        · simp only [MiniChain.steps, List.map_cons, List.map_nil, List.mem_cons, List.not_mem_nil, or_false] at ht
          rcases ht with rfl | rfl
          · exact ⟨by decide +kernel, by decide, by rintro _ _ ⟨⟩; decide⟩
          · trivial
      · rcases hi with rfl | rfl <;> intro c hc t ht <;> rw [List.mem_singleton.1 hc] at ht
        · simp only [MiniChain.steps, List.map_cons, List.map_nil, List.mem_cons, List.not_mem_nil, or_false] at ht
          rcases ht with rfl | rfl | rfl
          · exact ⟨by decide +kernel, by decide, nofun⟩
          · exact ⟨by decide, unqualified_iff.2 rfl, nofun, by decide, by decide⟩
          · exact ⟨by decide +kernel, by decide, nofun⟩
        · rw [List.mem_singleton.1 ht]
          trivial }

theorem fnTalks_typed : ScriptOf fnTalksTyped fnTalks :=
  .line (rfl) (.skip (rfl) (.line (rfl) (.line (rfl) (.line (rfl) (.line (rfl) .nil)))))

/-- The hypotheses of `C164_session` are met.  There is a prompt for each line, also for the comment; the function says
where it leads to; the lines that fail have their messages, and nothing is said by the rest of them. -/
example : ∃ s', Visits (demoWorld []) (1 + 1) (atPrompt [] fnTalksReports) (fnTalksTyped.map .line) s' ∧
    s'.cwd = cs!"/t" ∧
    printed s'.trace = printed (atPrompt [] fnTalksReports).trace ++
      [(some (.orig 1), cs!"$ "), (some (.orig 1), cs!"/t\n"), (some (.orig 1), cs!"$ "), (some (.orig 1), cs!"$ "), (some (.orig 1), cs!"os error\n"),
        (some (.orig 1), cs!"$ "), (some (.orig 1), cs!"/t\n"), (some (.orig 1), cs!"$ "), (some (.orig 1), []),
        (some (.orig 1), cs!"No job with that jid\n"), (some (.orig 1), cs!"$ "),
        (some (.orig 1), cs!"source needs an argument\n")] := by
  obtain ⟨τ, hτ, h1, h2, h3⟩ : ∃ τ, fnWorld.session 1 (.of (atPrompt [] fnTalksReports) fun _ => none) fnTalks =
        some τ ∧ (atPrompt [] fnTalksReports).waits = τ.reported ++ [] ∧ τ.ended = none ∧ τ.cwd = cs!"/t" := by
    have : ((fnWorld.session 1 (.of (atPrompt [] fnTalksReports) fun _ => none) fnTalks).any fun τ =>
      decide ((atPrompt [] fnTalksReports).waits = τ.reported ++ [] ∧
        τ.ended = none ∧ τ.cwd = cs!"/t")) = true := by decide +kernel
    obtain ⟨τ, h1, h2⟩ := (Option.any_eq_true _ _).1 this
    exact ⟨τ, h1, of_decide_eq_true h2⟩
  obtain ⟨s', a1, -, -, -, a3, -, -, -, a4, -⟩ := C164_session _ _ _ _ _ fnTalks_ok _ fnTalks_typed 1 τ hτ [] h1 (by simp)
  exact ⟨s', (a1 h2).1, a3.trans h3, a4.trans (congrArg _ (by decide +kernel))⟩

end Rsh
