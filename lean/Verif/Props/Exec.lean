import Verif.Spec.Exec
import Verif.Props.Misuse
import Verif.Props.Process

/-!
# Property C81, for all words
-/

namespace Rsh

open Spec

theorem hasChar_decide (c : Char) (x : Str) : hasChar c x = decide (c ∈ x) := by
  by_cases h : c ∈ x
  · rw [hasChar_iff.2 h, decide_eq_true h]
  · rw [hasChar_false.2 h, decide_eq_false h]

/-- The position `o` in the words `ws` stands for the options seen and the words left. -/
structure ExecAt (ws : List Str) (o : ExecOpts) (f : ExecSeen) (prev : Str) (rest : List Str) : Prop where
  rest : ws.drop o.pos = rest
  prev : o.rename = true → ws.getD (o.pos - 1) [] = prev
  empty : o.emptyEnv = f.empty
  login : o.dash = f.login
  named : o.rename = f.named

/-- The options end as the reading says. -/
def ExecEnds (ws : List Str) (s : Sh) (r : Out ExecOpts × Sh) : ExecReading → Prop
  | .short => r = (.panic .index, s)
  | .refused => r = (.err (cs!"exec -a needs an argument"), s)
  | .run a0 cmd args e => ∃ o, r = (.ok o, s) ∧ ws[o.pos]? = some cmd ∧ execArgv ws o = a0 :: args ∧ o.emptyEnv = e

theorem ExecAt.get {ws : List Str} {o : ExecOpts} {f : ExecSeen} {prev x : Str} {rest : List Str} (h : ExecAt ws o f prev (x :: rest)) :
    ws[o.pos]? = some x := by
  have := congrArg List.head? h.rest
  simpa [List.head?_drop] using this

theorem ExecAt.tail {ws : List Str} {o : ExecOpts} {f : ExecSeen} {prev x : Str} {rest : List Str} (h : ExecAt ws o f prev (x :: rest)) :
    ws.drop (o.pos + 1) = rest := by
  have := congrArg List.tail h.rest
  simpa [List.tail_drop] using this

theorem ExecAt.word {ws : List Str} {o : ExecOpts} {f : ExecSeen} {prev x : Str} {rest : List Str} (h : ExecAt ws o f prev (x :: rest))
    (s : Sh) : wordAt ws o.pos s = (.ok x, s) := by
  unfold wordAt
  rw [h.get]
  rfl

theorem ExecAt.none {ws : List Str} {o : ExecOpts} {f : ExecSeen} {prev : Str} (h : ExecAt ws o f prev [])
    (s : Sh) : wordAt ws o.pos s = (.panic .index, s) := by
  unfold wordAt
  have : ws[o.pos]? = Option.none := by
    have := h.rest
    rw [List.drop_eq_nil_iff] at this
    exact List.getElem?_eq_none this
  rw [this]
  rfl

/-- One word is dropped. -/
theorem ExecAt.skip {ws : List Str} {o o' : ExecOpts} {f f' : ExecSeen} {prev x : Str} {rest : List Str} (h : ExecAt ws o f prev (x :: rest))
    (hp : o'.pos = o.pos + 1) (h1 : o'.emptyEnv = f'.empty) (h2 : o'.dash = f'.login) (h3 : o'.rename = f'.named) :
    ExecAt ws o' f' x rest :=
  ⟨by rw [hp]; exact h.tail, fun _ => by rw [hp, Nat.add_sub_cancel, List.getD_eq_getElem?_getD, h.get]; rfl, h1, h2, h3⟩

theorem execCommand_ends {ws : List Str} {o : ExecOpts} {f : ExecSeen} {prev : Str} {rest : List Str} (h : ExecAt ws o f prev rest)
    (hr : rest ≠ []) (s : Sh) : ExecEnds ws s (.ok o, s) (execCommand f prev rest) := by
  cases rest with
  | nil => exact absurd rfl hr
  | cons cmd args =>
    refine ⟨o, rfl, h.get, ?_, h.empty⟩
    unfold execArgv
    rw [h.rest]
    dsimp only
    rw [h.login]
    cases hn : f.named
    · rw [show o.rename = false from h.named.trans hn]
      cases f.login <;> rfl
    · have hr : o.rename = true := h.named.trans hn
      rw [h.prev hr, hr]
      cases f.login <;> rfl

/-- The last step of `execOpts2`. -/
def namedTail (ws : List Str) (o : ExecOpts) : M ExecOpts := do
  let z ← wordAt ws o.pos
  if hasChar 'a' z then
    let o := { o with rename := true, pos := o.pos + 2 }
    if ws.length ≤ o.pos then throwE (cs!"exec -a needs an argument") else pure o
  else pure o

/-- The last two steps of `execOpts2`. -/
def loginTail (ws : List Str) (o : ExecOpts) : M ExecOpts := do
  let y ← wordAt ws o.pos
  let o := if hasChar 'l' y then { o with dash := true, pos := o.pos + 1 } else o
  namedTail ws o

theorem length_of_drop {ws rest : List Str} {k : Nat} (h : ws.drop k = rest) (hr : rest ≠ []) : ws.length = k + rest.length := by
  have := congrArg List.length h
  rw [List.length_drop] at this
  have : rest.length ≠ 0 := by simpa using hr
  omega

theorem namedTail_ends {ws : List Str} {o : ExecOpts} {f : ExecSeen} {prev : Str} {rest : List Str} (h : ExecAt ws o f prev rest)
    (s : Sh) : ExecEnds ws s (namedTail ws o s) (execNamed f prev rest) := by
  unfold namedTail
  cases rest with
  | nil => rw [run_bind, h.none]; rfl
  | cons x rest =>
    rw [run_bind_ok (h.word s)]
    show ExecEnds ws s _ (if 'a' ∈ x then _ else execCommand f prev (x :: rest))
    have hl : ws.length = o.pos + (rest.length + 1) := length_of_drop h.rest (by simp)
    by_cases ha : 'a' ∈ x
    · rw [if_pos (hasChar_iff.2 ha), if_pos ha]
      dsimp only
      rcases rest with _ | ⟨nm, _ | ⟨cmd, args⟩⟩
      · rw [if_pos (by simp only [List.length_nil] at hl; omega)]
        rfl
      · rw [if_pos (by simp only [List.length_cons, List.length_nil] at hl; omega)]
        rfl
      · rw [if_neg (by simp only [List.length_cons] at hl; omega)]
        have h1 : ExecAt ws { o with pos := o.pos + 1 } f x (nm :: cmd :: args) := h.skip rfl h.empty h.login h.named
        exact execCommand_ends (h1.skip (o' := { o with rename := true, pos := o.pos + 2 }) (f' := { f with named := true })
          rfl h.empty h.login rfl) (by simp) s
    · rw [if_neg (by rw [hasChar_iff]; exact ha), if_neg ha]
      exact execCommand_ends h (by simp) s

theorem loginTail_ends {ws : List Str} {o : ExecOpts} {f : ExecSeen} {prev : Str} {rest : List Str} (h : ExecAt ws o f prev rest)
    (s : Sh) : ExecEnds ws s (loginTail ws o s) (execLogin f prev rest) := by
  unfold loginTail
  cases rest with
  | nil => rw [run_bind, h.none]; rfl
  | cons x rest =>
    rw [run_bind_ok (h.word s), execLogin]
    by_cases ha : 'l' ∈ x
    · rw [if_pos (hasChar_iff.2 ha), if_pos ha]
      exact namedTail_ends (o := { o with dash := true, pos := o.pos + 1 }) (f := { f with login := true })
        (h.skip rfl h.empty rfl h.named) s
    · rw [if_neg (by rw [hasChar_iff]; exact ha), if_neg ha]
      exact namedTail_ends h s

theorem execOpts2_ends {ws : List Str} {o : ExecOpts} {f : ExecSeen} {prev : Str} {rest : List Str} (h : ExecAt ws o f prev rest)
    (s : Sh) : ExecEnds ws s (execOpts2 ws o s) (execMore f prev rest) := by
  unfold execOpts2
  cases rest with
  | nil => rw [run_bind, h.none]; rfl
  | cons x rest =>
    rw [run_bind_ok (h.word s), execMore]
    by_cases hd : '-' ∈ x
    · rw [if_pos (hasChar_iff.2 hd), if_pos hd]
      by_cases ha : 'c' ∈ x
      · rw [if_pos (hasChar_iff.2 ha), if_pos ha]
        exact loginTail_ends (o := { o with emptyEnv := true, pos := o.pos + 1 }) (f := { f with empty := true })
          (h.skip rfl rfl h.login h.named) s
      · rw [if_neg (by rw [hasChar_iff]; exact ha), if_neg ha]
        exact loginTail_ends h s
    · rw [if_neg (by rw [hasChar_iff]; exact hd), if_neg hd]
      exact execCommand_ends h (by simp) s

/-- The options of `exec` are read as `execReads` says. -/
theorem execOpts_ends {ws : List Str} (hne : ws ≠ []) (s : Sh) :
    ExecEnds ws s ((do let o ← execOpts1 ws; execOpts2 ws o : M ExecOpts) s) (execReads ws) := by
  cases ws with
  | nil => exact absurd rfl hne
  | cons x rest =>
    have hstart : ExecAt (x :: rest) {} {} [] (x :: rest) := ⟨rfl, by simp, rfl, rfl, rfl⟩
    have hw : wordAt (x :: rest) 0 s = (.ok x, s) := rfl
    show ExecEnds (x :: rest) s _ (if '-' ∈ x ∧ 'a' ∈ x then _ else _)
    by_cases hd : '-' ∈ x
    · by_cases ha : 'a' ∈ x
      · rw [if_pos ⟨hd, ha⟩]
        rcases rest with _ | ⟨nm, _ | ⟨cmd, args⟩⟩
        · have : execOpts1 [x] s = (.err (cs!"exec -a needs an argument"), s) := by
            simp [execOpts1, wordAt, hasChar_decide, hd, ha, throwE]
          rw [run_bind, this]
          rfl
        · have : execOpts1 [x, nm] s = (.err (cs!"exec -a needs an argument"), s) := by
            simp [execOpts1, wordAt, hasChar_decide, hd, ha, throwE]
          rw [run_bind, this]
          rfl
        · have : execOpts1 (x :: nm :: cmd :: args) s =
              (.ok ⟨decide ('c' ∈ x), decide ('l' ∈ x), true, 2⟩, s) := by
            by_cases h1 : 'c' ∈ x <;> by_cases h2 : 'l' ∈ x <;> simp [execOpts1, wordAt, hasChar_decide, hd, ha, h1, h2]
          rw [run_bind_ok this]
          exact execOpts2_ends (f := ⟨decide ('c' ∈ x), decide ('l' ∈ x), true⟩) (prev := nm) (rest := cmd :: args)
            ⟨rfl, fun _ => rfl, rfl, rfl, rfl⟩ s
      · rw [if_neg (fun h => ha h.2)]
        by_cases hcl : 'c' ∈ x ∨ 'l' ∈ x
        · rw [if_pos ⟨hd, hcl⟩]
          have : execOpts1 (x :: rest) s = (.ok ⟨decide ('c' ∈ x), decide ('l' ∈ x), false, 1⟩, s) := by
            by_cases h1 : 'c' ∈ x <;> by_cases h2 : 'l' ∈ x
            · simp [execOpts1, wordAt, hasChar_decide, hd, ha, h1, h2]
            · simp [execOpts1, wordAt, hasChar_decide, hd, ha, h1, h2]
            · simp [execOpts1, wordAt, hasChar_decide, hd, ha, h1, h2]
            · exact absurd hcl (by simp [h1, h2])
          rw [run_bind_ok this]
          exact execOpts2_ends (f := ⟨decide ('c' ∈ x), decide ('l' ∈ x), false⟩) ⟨rfl, by simp, rfl, rfl, rfl⟩ s
        · rw [if_neg (fun h => hcl h.2)]
          have : execOpts1 (x :: rest) s = (.ok {}, s) := by
            simp only [not_or] at hcl
            simp [execOpts1, wordAt, hasChar_decide, hd, ha, hcl.1, hcl.2]
          rw [run_bind_ok this]
          exact execOpts2_ends hstart s
    · rw [if_neg (fun h => hd h.1), if_neg (fun h => hd h.1)]
      have : execOpts1 (x :: rest) s = (.ok {}, s) := by
        simp [execOpts1, wordAt, hasChar_decide, hd]
      rw [run_bind_ok this]
      exact execOpts2_ends hstart s

theorem bExec_cons (w : World) (s : Sh) (c : SimpleCommand) (hne : c.words ≠ []) :
    bExec w c s = ((do let o ← execOpts1 c.words; execOpts2 c.words o : M ExecOpts) >>= fun o =>
      if (execArgv c.words o).any (hasChar '\x00') then panicM .unwrap
      else do
        let argv0 ← wordAt c.words o.pos
        let s ← getS
        tempExecve w argv0 (execArgv c.words o) (if o.emptyEnv then [] else s.env)) s := by
  unfold bExec
  generalize c.words = ws at hne ⊢
  cases ws with
  | nil => exact absurd rfl hne
  | cons x rest => rw [bind_assoc]

theorem reportM_panic {m : M Unit} {s s' : Sh} {k : PanicKind} (h : m s = (.panic k, s')) : reportM m s = (.panic k, s') := by
  unfold reportM
  rw [run_bind, run_tryE, h]

theorem reportM_execed {m : M Unit} {s s' : Sh} {i : ExecImage} (h : m s = (.execed i, s')) : reportM m s = (.execed i, s') := by
  unfold reportM
  rw [run_bind, run_tryE, h]

/-- How the reading of the words decides what `exec` does. -/
theorem bExec_reads (w : World) (s : Sh) (c : SimpleCommand) :
    match execReads c.words with
    | .short => bExec w c s = (.panic .index, s)
    | .refused => bExec w c s = (.err (if c.words = [] then cs!"exec needs an argument" else cs!"exec -a needs an argument"), s)
    | .run a0 cmd args e => bExec w c s =
        if (a0 :: args).any (hasChar '\x00') then (.panic .unwrap, s)
        else tempExecve w cmd (a0 :: args) (if e then [] else s.env) s := by
  by_cases hne : c.words = []
  · have : execReads c.words = .refused := by rw [hne]; rfl
    rw [this]
    simp only [hne]
    unfold bExec
    rw [hne]
    rfl
  · have h := execOpts_ends hne s
    rw [bExec_cons w s c hne, run_bind]
    cases hr : execReads c.words with
    | short =>
      rw [hr] at h
      dsimp only [ExecEnds] at h ⊢
      rw [h]
    | refused =>
      rw [hr] at h
      dsimp only [ExecEnds] at h ⊢
      rw [h, if_neg hne]
    | run a0 cmd args e =>
      rw [hr] at h
      obtain ⟨o, h1, h2, h3, h4⟩ := h
      dsimp only
      rw [h1]
      dsimp only
      rw [h3, h4]
      by_cases hz : (a0 :: args).any (hasChar '\x00') = true
      · rw [if_pos hz, if_pos hz]
        rfl
      · rw [if_neg hz, if_neg hz]
        unfold wordAt
        rw [h2]
        rfl

theorem handled_untouched {s : Sh} (h : (∀ g, s.disp g = atWork g) ∨ (∀ g, s.disp g = untouched g)) (g : Nat) :
    (removeHandlers s).2.disp g = untouched g := by
  show (if handledSignals.contains g then .dfl else s.disp g) = untouched g
  by_cases hg : handledSignals.contains g = true
  · rw [if_pos hg]
    have : g ≠ 13 := by
      rintro rfl
      exact absurd hg (by decide)
    unfold untouched
    rw [if_neg this]
  · rw [if_neg hg]
    rcases h with h | h
    · rw [h]
      unfold atWork untouched
      rw [if_neg (show g ∉ [2, 17, 20] from ?_)]
      intro hm
      simp only [List.mem_cons, List.not_mem_nil, or_false] at hm
      rcases hm with rfl | rfl | rfl <;> exact hg (by decide)
    · exact h g

/-- C81, for all words: what `exec` does with any arguments at any prompt. -/
theorem C81_all (w : World) (n : Nat) (s : Sh) (hp : AtPrompt w s) (c : Call) (hc : c.Ok s) (hn : c.name = cs!"exec") :
    ExecLine w s c.values (interactiveLine w (n + 1) c.text s) := by
  rw [Call.line w n hc, callBuiltin_exec _ _ (show (Call.simple c).name = _ from hn)]
  have h := bExec_reads w { s with masked := true } (Call.simple c)
  rw [show (Call.simple c).words = c.values from rfl] at h
  generalize c.values = ws at h ⊢
  have hdisp := handled_untouched (s := { s with masked := true }) (C89_handlers_partial w s hp)
  cases hr : execReads ws with
  | short =>
    rw [hr] at h
    dsimp only at h
    rw [reportM_panic h]
    exact .crashed (.short hr)
  | refused =>
    rw [hr] at h
    dsimp only at h
    rw [reportM_err h]
    exact .refused hr rfl
  | run a0 cmd args e =>
    rw [hr] at h
    dsimp only at h
    by_cases hz : (a0 :: args).any (hasChar '\x00') = true
    · rw [if_pos hz] at h
      rw [reportM_panic h]
      rw [List.any_eq_true] at hz
      obtain ⟨a, ha, hz⟩ := hz
      exact .crashed (.nul hr ha (hasChar_iff.1 hz))
    · rw [if_neg hz] at h
      have hz' : ∀ a ∈ a0 :: args, '\x00' ∉ a := fun a ha hb => hz (List.any_eq_true.2 ⟨a, ha, hasChar_iff.2 hb⟩)
      unfold tempExecve at h
      rw [run_bind_ok (show removeHandlers { s with masked := true } = (.ok (), (removeHandlers { s with masked := true }).2) from rfl)] at h
      cases hpath : pathOf s with
      | none =>
        have : lookupCommandM w cmd (removeHandlers { s with masked := true }).2 =
            (.panic .unwrap, (removeHandlers { s with masked := true }).2) := by
          unfold lookupCommandM
          rw [run_getS_bind, lookupCommand_path, show pathOf (removeHandlers { s with masked := true }).2 = none from hpath]
          rfl
        rw [run_bind, this] at h
        rw [reportM_panic h]
        exact .crashed (.path hr hpath)
      | some path =>
        rw [run_bind_ok (lookupCommandM_run w _ (removeHandlers { s with masked := true }).2 (path := path) hpath)] at h
        rw [show (removeHandlers { s with masked := true }).2.trace = s.trace from rfl] at h
        cases hs : CtxMgr.searchPath (w.isFile s.trace) cmd (splitOn ':' path) with
        | none =>
          rw [hs] at h
          rw [reportM_err h]
          exact .failed (.missing hr hz' hpath ((searchPath_missing _ _ _).1 hs)) hdisp rfl
        | some file =>
          rw [hs] at h
          have hf := (searchPath_first _ _ _ _).1 hs
          dsimp only at h
          by_cases hnf : hasChar '\x00' file = true
          · rw [if_pos hnf] at h
            rw [reportM_panic h]
            exact .crashed (.file hr hpath hf (hasChar_iff.1 hnf))
          · rw [if_neg hnf, run_getS_bind] at h
            have hnf' : '\x00' ∉ file := fun hb => hnf (hasChar_iff.2 hb)
            rw [show (removeHandlers { s with masked := true }).2.trace = s.trace from rfl] at h
            by_cases hx : w.execOk s.trace file = true
            · rw [if_pos hx] at h
              rw [reportM_execed h]
              refine .replaced hr hz' ⟨⟨path, hpath, hf⟩, hx, hnf'⟩ rfl rfl rfl rfl rfl rfl ?_ rfl
              intro g
              show (if (removeHandlers { s with masked := true }).2.disp g = .catch then _ else _) = _
              rw [hdisp, if_neg]
              unfold untouched
              split <;> simp
            · rw [if_neg hx] at h
              rw [reportM_err h]
              exact .failed (.refused hr hz' hpath hf hnf' (by simpa using hx)) hdisp rfl

example : execReads [cs!"-c", cs!"-l", cs!"cat", cs!"x", cs!"y", cs!"z"] = .run (cs!"-x") (cs!"y") [cs!"z"] true ∧
    execReads [cs!"ls", cs!"-x"] = .run (cs!"ls") (cs!"ls") [cs!"-x"] false ∧
    execReads [cs!"my-cmd"] = .short ∧ execReads [cs!"-a", cs!"x"] = .refused ∧
    AtPrompt (demoWorld []) (atPrompt [cs!"ls &"]) ∧
    (⟨cs!"exec", [word (cs!"nope")]⟩ : Call).Ok (atPrompt [cs!"ls &"]) :=
  ⟨by decide, by decide, by decide, by decide, atPrompt_ok (by decide +kernel), by decide, by decide, by decide +kernel,
    by decide, by
      intro a ha
      simp only [List.mem_cons, List.not_mem_nil, or_false] at ha
      subst ha
      exact means_word (by decide)⟩

end Rsh
