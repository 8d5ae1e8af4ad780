import Verif.Proofs.Calm
import Verif.Proofs.Session
import Verif.Proofs.Main
import Verif.Spec.Inside
import Verif.Spec.Demo

/-!
# C150: builtins start no process
-/

namespace Rsh

open Spec

namespace Inner

/-- The relation: no process has been started. -/
abbrev Rel : Sh → Sh → Prop := Through startsNothing

theorem seq : Seq Rel Rel := by
  have tr : ∀ {a b c}, Rel a b → Rel b c → Rel a c := by
    rintro a b c ⟨l1, e1, h1⟩ ⟨l2, e2, h2⟩
    refine ⟨l2 ++ l1, by rw [e2, e1, List.append_assoc], fun e he => ?_⟩
    rcases List.mem_append.1 he with he | he
    · exact h2 e he
    · exact h1 e he
  exact ⟨fun _ => ⟨[], rfl, by simp⟩, tr, id, tr⟩

theorem same {s s' : Sh} (h : s'.trace = s.trace) : Rel s s' := ⟨[], h, by simp⟩

theorem event {s s' : Sh} {e : Event} (he : startsNothing e) (h : s'.trace = e :: s.trace) : Rel s s' :=
  ⟨[e], h, by simpa using he⟩

theorem ordinary {e : Event} (h : Ordinary e = true) : startsNothing e := by
  cases e <;> first | trivial | cases h

theorem frame (w : World) : Frame w (fun _ => False) Rel Rel where
  toSeq := seq
  trace _ _ h := event (ordinary h) rfl
  saved _ loc := event (e := .saveHistory loc) trivial rfl
  masked _ _ := same rfl
  handlers _ := same rfl
  createJob _ _ _ _ := same rfl
  deleteJob _ _ := same rfl
  resumeJob _ _ _ := same rfl
  scan _ _ _ _ _ := same rfl
  waited _ r _ _ := event (e := .waited r) trivial rfl
  gotSigchld _ _ := same rfl
  exitStatus _ _ := same rfl
  subst _ _ h := h.1.elim
  fork _ _ _ _ h := h.1.elim
  setEnv _ _ _ := same rfl
  aliases _ _ := same rfl
  cwd _ _ p _ := event (e := .chdir p) trivial rfl
  addVar _ _ _ _ := same rfl
  addVarPos _ _ _ _ _ := same rfl
  addFunction _ _ _ := same rfl
  removeVar _ _ := same rfl
  removeFunction _ _ := same rfl
  removeContext _ _ := same rfl
  addVarReadonly _ _ _ _ := same rfl
  setVarReadonly _ _ _ _ := same rfl
  envVar _ _ _ _ _ _ := same rfl
  envFun _ _ _ _ _ := same rfl
  nameSelf _ _ _ _ := same rfl
  func _ _ h := h.1.elim
  ctxFile _ _ _ h := h.1.elim

variable {w : World} {rec : List AndOr → M Int}

theorem cutLoop_plain (n : Nat) (x : Str) (h : '$' ∉ x ∧ '`' ∉ x) (s : Sh) :
    ∃ v, cutLoop w rec n x s = (.ok v, s) := by
  induction n generalizing x with
  | zero => exact ⟨_, rfl⟩
  | succ n ih =>
    cases x with
    | nil => exact ⟨_, rfl⟩
    | cons c x =>
      simp only [List.mem_cons, not_or] at h
      obtain ⟨v, hv⟩ := ih x ⟨h.1.2, h.2.2⟩
      unfold cutLoop
      rw [if_neg (by rintro (e | e); exact h.1.1 e.symm; exact h.2.1 e.symm), run_bind_ok hv]
      exact ⟨_, rfl⟩

theorem cutQuotes_plain (x : Str) (h : '$' ∉ x ∧ '`' ∉ x) (s : Sh) : ∃ v, cutQuotes w rec x s = (.ok v, s) := by
  unfold cutQuotes
  split
  · refine cutLoop_plain _ _ ⟨fun hm => h.1 ?_, fun hm => h.2 ?_⟩ s <;>
      exact List.mem_of_mem_tail (List.dropLast_subset _ hm)
  · exact ⟨_, rfl⟩

theorem evalSuffixWords_plain (ps : List Str) (h : ∀ x ∈ ps, '$' ∉ x ∧ '`' ∉ x) (s : Sh) :
    ∃ v, evalSuffixWords w rec ps s = (.ok v, s) := by
  induction ps with
  | nil => exact ⟨_, rfl⟩
  | cons p ps ih =>
    have hp := h p List.mem_cons_self
    obtain ⟨v, hv⟩ := ih fun x hx => h x (List.mem_cons_of_mem _ hx)
    obtain ⟨q, hq⟩ := cutQuotes_plain (w := w) (rec := rec) p hp s
    have hs1 : hasSub (cs!"$(") p = false := hasSub_dollar hp.1 _
    have hs2 : hasSub ['`'] p = false := by
      rw [Bool.eq_false_iff]
      exact fun e => hp.2 ((hasSub_single _ _).1 e)
    obtain ⟨d, hd⟩ : ∃ d, evalDoubleQuotes w rec p s = (.ok d, s) := by
      unfold evalDoubleQuotes
      rw [if_pos (by rw [hs1, hs2]; rfl), run_bind_ok hq]
      exact ⟨_, rfl⟩
    unfold evalSuffixWords
    dsimp only
    split
    · rw [run_bind_ok hd, run_bind_ok hv]
      exact ⟨_, rfl⟩
    · split
      · rw [run_bind_ok hq, run_pure_bind, run_bind_ok hv]
        exact ⟨_, rfl⟩
      · rw [run_pure_bind, run_bind_ok hv]
        exact ⟨_, rfl⟩

/-- Expanding a builtin with literal arguments starts nothing. -/
theorem expandCommand {c : SimpleCommand} (hb : isBuiltin c.name = true) (hl : ∀ x ∈ c.words, '$' ∉ x ∧ '`' ∉ x) {s : Sh}
    (ha : s.aliases.get c.name = none) : (expandCommand w rec c s).2 = s := by
  obtain ⟨h1, h2, h3, h4⟩ := Calm.builtin_plain _ hb
  unfold Rsh.expandCommand
  have e1 : Rsh.aliasLookup c s = (.ok c, s) := by
    unfold Rsh.aliasLookup lookupAlias
    rw [run_getS_bind, ha]
    rfl
  rw [run_bind_ok e1, run_bind]
  unfold Rsh.expandVars
  rw [run_getS_bind]
  rcases he : expandVarsIn s.ctx c with _ | c2
  · rfl
  · rw [unwrapM_some]
    show (Rsh.evalWords w rec c2 s).2 = s
    unfold expandVarsIn at he
    dsimp only at he
    obtain ⟨pre, _, rfl⟩ := Option.map_eq_some_iff.1 he
    have hn : expandWord s.ctx c.name = c.name := by
      unfold expandWord
      split
      · next e => rw [e] at h1; exact absurd rfl h1
      · rfl
    have hw : ∀ ws : List Str, (∀ x ∈ ws, '$' ∉ x ∧ '`' ∉ x) → ws.map (expandWord s.ctx) = ws := by
      intro ws h
      rw [List.map_congr_left (g := id), List.map_id]
      intro x hx
      unfold expandWord
      split
      · exact absurd List.mem_cons_self (h _ hx).1
      · rfl
    unfold Rsh.evalWords
    simp only [hn]
    by_cases e : c.name = []
    · rw [if_pos e]; rfl
    rw [if_neg e, h2]
    have h5 := h4.resolve_left e
    simp only [Bool.false_eq_true, if_false]
    rw [run_pure_bind, h5, unwrapM_some, run_pure_bind]
    have e6 : Rsh.evalNameWords w rec [c.name] s = (.ok [c.name], s) := by
      unfold Rsh.evalNameWords
      rw [h3]
      rfl
    rw [run_bind_ok e6]
    obtain ⟨p0, name, sfx⟩ := c
    cases sfx with
    | none => rfl
    | some sf =>
      dsimp only [Option.map_some]
      have hl' : ∀ x ∈ sf.word, '$' ∉ x ∧ '`' ∉ x := hl
      rw [hw _ hl']
      split
      · rfl
      · obtain ⟨v, hv⟩ := evalSuffixWords_plain (w := w) (rec := rec) sf.word hl' s
        rw [run_bind_ok hv]
        rfl

theorem of_keeps {m : M α} (h : Keeps Rel Rel m) (s : Sh) : Rel s (m s).2 := by
  have h1 := h s
  generalize m s = r at h1
  obtain ⟨o, s'⟩ := r
  cases o <;> exact h1

theorem bindAt {m : M α} {f : α → M β} {s : Sh} (hm : Rel s (m s).2)
    (hf : ∀ a s1, m s = (.ok a, s1) → Rel s1 (f a s1).2) : Rel s ((m >>= f) s).2 := by
  rw [run_bind]
  rcases h : m s with ⟨o, s1⟩
  rw [h] at hm
  cases o with
  | ok a => exact seq.trans hm (hf a s1 h)
  | _ => exact hm

theorem inner_builtin : ∀ x ∈ innerNames, (x ≠ defMark → isBuiltin x = true) ∧ x ∉ indirect := by decide +kernel

theorem callBuiltin {c : SimpleCommand} (hc : c.name ∈ innerNames) (hd : c.name ≠ defMark) (s : Sh) : Rel s (callBuiltin w rec c s).2 := by
  have F := frame w
  refine of_keeps ?_ s
  unfold Rsh.callBuiltin
  obtain ⟨pre, name, sfx⟩ := c
  simp only [innerNames, List.mem_cons, List.not_mem_nil, or_false] at hc
  rcases hc with rfl | rfl | rfl | rfl | rfl | rfl | rfl | rfl | rfl | rfl | rfl | rfl | rfl
  · exact F.bAssign _
  · exact F.bCd _
  · exact F.bExit _
  · exact F.bReturn _
  · exact F.bJobs
  · exact F.bFgBg _
  · exact F.bFgBg _
  · exact F.bUnalias _
  · exact F.bUnset _
  · exact F.bPwd
  · exact F.bReadonly _
  · exact F.bExec _
  · exact absurd rfl hd

/-- What is known of all the events and ends of a session. -/
def lack : Lack := ⟨indirect, fun _ => True, True, True⟩

theorem evalCommand {c : Command} (hn : ∀ x ∈ cmdNames c, x ∈ innerNames) (hl : Literal c) {s : Sh}
    (hs : Confined indirect s) : Rel s (evalCommand w rec c s).2 ∧
      ∀ o s1, Rsh.evalCommand w rec c s = (.ok o, s1) → o = none := by
  cases c with
  | compound c r => exact ⟨seq.refl s, fun o s1 h => by cases h⟩
  | funcDef f b =>
    unfold Rsh.evalCommand
    refine ⟨bindAt (of_keeps ((frame w).addFunctionM f b) s) fun _ s1 _ => seq.refl s1, fun o s1 h => ?_⟩
    obtain ⟨_, _, _, h⟩ := bind_ok_iff.1 h
    cases h
    rfl
  | simple c =>
    have hc : c.name ∈ innerNames := hn _ (by simp [cmdNames])
    have hb := (inner_builtin _ hc).1 hl.1
    unfold Rsh.evalCommand Rsh.evalSimple
    simp only [hb, if_true]
    refine ⟨bindAt ?_ fun _ s1 _ => seq.refl s1, fun o s1 h => ?_⟩
    · unfold evalBuiltin
      have ha := hs.aliases _ hb
      have he := expandCommand (w := w) (rec := rec) hb hl.2 ha
      refine bindAt (by rw [he]; exact seq.refl s) fun c' s1 h => ?_
      exact callBuiltin (by rw [Calm.expand_name hb ha h]; exact hc) (by rw [Calm.expand_name hb ha h]; exact hl.1) s1
    · obtain ⟨_, _, _, h⟩ := bind_ok_iff.1 h
      cases h
      rfl

theorem evalCommands {cs : List Command} (hn : ∀ x ∈ cmdsNames cs, x ∈ innerNames) (hl : ∀ c ∈ cs, Literal c) {s : Sh}
    (hs : Confined indirect s) : Rel s (evalCommands w rec cs s).2 ∧
      ∀ ps s1, Rsh.evalCommands w rec cs s = (.ok ps, s1) → ps = [] := by
  cases cs with
  | nil => exact ⟨seq.refl s, fun ps s1 h => by cases h; rfl⟩
  | cons c cs =>
    simp only [cmdsNames, List.mem_append] at hn
    obtain ⟨h1, h2⟩ := evalCommand (w := w) (rec := rec) (fun x hx => hn x (.inl hx)) (hl c List.mem_cons_self) hs
    unfold Rsh.evalCommands
    refine ⟨bindAt h1 fun o s1 h => ?_, fun ps s1 h => ?_⟩
    · rw [h2 o s1 h]
      exact seq.refl s1
    · obtain ⟨o, s2, h3, h4⟩ := bind_ok_iff.1 h
      rw [h2 o s2 h3] at h4
      cases h4
      rfl

theorem evalPipeline {pl : Pipeline} (hn : ∀ x ∈ pipeNames pl, x ∈ innerNames) (hl : ∀ c ∈ pl.seq, Literal c) {s : Sh}
    (hs : Confined indirect s) : Rel s (evalPipeline w rec pl s).2 := by
  obtain ⟨neg, cs, bg⟩ := pl
  unfold Rsh.evalPipeline
  refine bindAt (of_keeps (frame w).interruptsOff s) fun _ s1 h => ?_
  have h0 : s1 = { s with masked := true } := by cases h; rfl
  subst h0
  have hs1 : Confined indirect { s with masked := true } := ⟨hs.functions, hs.aliases⟩
  obtain ⟨h1, h2⟩ := evalCommands (w := w) (rec := rec) (cs := cs) (by simpa [pipeNames] using hn) hl hs1
  refine bindAt h1 fun ps s2 h => ?_
  rw [h2 ps s2 h]
  exact seq.refl s2

theorem evalAndOr (n : Nat) : ∀ {a : AndOr}, (∀ x ∈ chainNames a, x ∈ innerNames) → (∀ c ∈ chainCommands a, Literal c) →
    ∀ {s : Sh}, Confined indirect s → Rel s (evalAndOr w (evalFuel w n) a s).2
  | .mk none cond p, hn, hl, s, hs => by
    unfold Rsh.evalAndOr
    exact evalPipeline (by simpa [chainNames] using hn) (by simpa [chainCommands] using hl) hs
  | .mk (some l) cond p, hn, hl, s, hs => by
    simp only [chainNames, List.mem_append] at hn
    simp only [chainCommands, List.mem_append] at hl
    unfold Rsh.evalAndOr
    refine bindAt (evalAndOr n (fun x hx => hn x (.inl hx)) (fun c hc => hl c (.inl hc)) hs) fun st s1 h => ?_
    have h1 := Calm.evalAndOr (L := lack) (w := w) (rec := evalFuel w n) (fun _ h => h)
      (fun l hl => Calm.evalFuel (L := lack) (fun _ h => h) n hl) (a := l) (fun x hx => (inner_builtin x (hn x (.inl hx))).2) s hs
    rw [h] at h1
    have h2 : ∀ s, Confined indirect s → Rel s (Rsh.evalPipeline w (evalFuel w n) p s).2 := fun s hs =>
      evalPipeline (fun x hx => hn x (.inr hx)) (fun c hc => hl c (.inr hc)) hs
    cases cond with
    | none => exact seq.refl s1
    | some cd =>
      cases cd
      · dsimp only
        split
        · exact seq.refl s1
        · exact h2 s1 h1.tame
      · dsimp only
        split
        · exact seq.refl s1
        · exact h2 s1 h1.tame

theorem evalListFrom (n : Nat) : ∀ (l : List AndOr) (st : Int), (∀ x ∈ listNames l, x ∈ innerNames) →
    (∀ a ∈ l, ∀ c ∈ chainCommands a, Literal c) → ∀ {s : Sh}, Confined indirect s →
    Rel s (evalListFrom w (evalFuel w n) st l s).2
  | [], _, _, _, s, _ => seq.refl s
  | a :: as, st, hn, hl, s, hs => by
    simp only [listNames, List.mem_append] at hn
    unfold Rsh.evalListFrom
    refine bindAt (evalAndOr n (fun x hx => hn x (.inl hx)) (hl a List.mem_cons_self) hs) fun st' s1 h => ?_
    have h1 := Calm.evalAndOr (L := lack) (w := w) (rec := evalFuel w n) (fun _ h => h)
      (fun l hl => Calm.evalFuel (L := lack) (fun _ h => h) n hl) (a := a) (fun x hx => (inner_builtin x (hn x (.inl hx))).2) s hs
    rw [h] at h1
    exact evalListFrom n as st' (fun x hx => hn x (.inr hx)) (fun b hb => hl b (List.mem_cons_of_mem _ hb)) h1.tame

theorem interactiveLine (n : Nat) {t : Str} (ht : Inside t) {s : Sh} (hs : Confined indirect s) :
    Rel s (interactiveLine w n t s).2 := by
  unfold Inside commandNames at ht
  unfold Rsh.interactiveLine
  split
  · exact seq.refl s
  cases hp : parse t with
  | none => exact of_keeps ((frame w).printlnM _) s
  | some cc =>
    rw [hp] at ht
    dsimp only
    refine bindAt ?_ fun r s1 _ => ?_
    · have : Rel s (evalTop w n cc s).2 := by
        cases cc with
        | none => exact seq.refl s
        | some l =>
          unfold evalTop evalCC
          cases n with
          | zero => exact seq.refl s
          | succ n => exact evalListFrom n l _ ht.1 ht.2 hs
      rw [run_tryE]
      generalize evalTop w n cc s = r at this
      obtain ⟨o, s1⟩ := r
      cases o <;> exact this
    · cases r with
      | ok _ => exact seq.refl s1
      | error e => exact of_keeps ((frame w).printlnM _) s1

theorem without {t : Str} (ht : Inside t) : Without indirect t := fun x hx => (inner_builtin x (ht.1 x hx)).2

end Inner

/-- C150, one line: if its commands are builtins that evaluate no other text, with arguments that contain neither
variables nor substitutions, and no builtin has been renamed by an alias, then the shell runs it without starting, or
trying to start, any process; and the same holds of the next line. -/
theorem C150_line (w : World) (n : Nat) {t : Str} (ht : Inside t) {s : Sh} (hs : Confined indirect s) :
    Through startsNothing s (interactiveLine w n t s).2 ∧ Confined indirect (interactiveLine w n t s).2 :=
  ⟨Inner.interactiveLine n ht hs,
    (Calm.interactiveLine (L := Inner.lack) (fun _ h => h) n (Inner.without ht) s hs).tame⟩

/-- C150, whole sessions of such lines, also with signals. -/
theorem C150_session (w : World) (n : Nat) (ins : List SessionIn) (hi : ∀ t, .line t ∈ ins → Inside t) {s : Sh}
    (hs : Confined indirect s) : Through startsNothing s (interactiveLoop w n ins s).2 := by
  have F := Inner.frame w
  have hprompt : ∀ (f : Unit → M Unit) (s : Sh), Confined indirect s →
      (∀ s1, Confined indirect s1 → Inner.Rel s1 (f () s1).2) → Inner.Rel s ((do
        let p ← (do unwrapM .unwrap (← expandVar .none (cs!"PS1")))
        printM p
        f () : M Unit) s).2 := by
    intro f s hs hf
    have hk : Keeps Inner.Rel Inner.Rel (do unwrapM .unwrap (← expandVar .none (cs!"PS1")) : M Str) :=
      .bind F.toSeq (F.expandVar _ _) fun _ => .unwrapM F.toSeq _ _
    have hc : Calm Inner.lack w (do unwrapM .unwrap (← expandVar .none (cs!"PS1")) : M Str) :=
      .bind (Calm.expandVar _ _) fun _ => Calm.unwrapM _ _
    refine Inner.bindAt (Inner.of_keeps hk s) fun p s1 h => ?_
    have h1 := hc s hs
    rw [h] at h1
    exact Inner.bindAt (Inner.of_keeps (F.printM p) s1) fun _ s2 h' => by
      have h2 := Calm.printM (L := Inner.lack) (w := w) p s1 h1.tame
      rw [h'] at h2
      exact hf s2 h2.tame
  have hsave : ∀ s, Inner.Rel s (saveHistory w s).2 := fun s => Inner.of_keeps F.saveHistory s
  induction ins generalizing s with
  | nil => exact hsave s
  | cons i ins ih =>
    have ih' := fun {s : Sh} hs => ih (fun t ht => hi t (List.mem_cons_of_mem _ ht)) (s := s) hs
    cases i with
    | line t =>
      refine hprompt (fun _ => interactiveLine w n t >>= fun _ => interactiveLoop w n ins) s hs fun s1 h1 => ?_
      have h := C150_line w n (hi t List.mem_cons_self) h1
      refine Inner.bindAt h.1 fun _ s2 h2 => ?_
      rw [h2] at h
      exact ih' h.2
    | interrupted => exact hprompt (fun _ => interactiveLoop w n ins) s hs fun s1 h1 => ih' h1
    | eof => exact hprompt (fun _ => saveHistory w) s hs fun s1 h1 => hsave s1
    | rlError =>
      exact hprompt (fun _ => printlnM (cs!"Readline Error: " ++ w.osMsg) >>= fun _ => saveHistory w) s hs fun s1 h1 =>
        Inner.bindAt (Inner.of_keeps (F.printlnM _) s1) fun _ s2 _ => hsave s2
    | sig g =>
      refine Inner.bindAt (Inner.of_keeps (F.deliver (fun _ _ _ _ => Inner.same rfl) (fun _ _ _ => Inner.same rfl)
        F.waitForJob g) s) fun _ s1 h => ?_
      have h1 := Calm.deliver (L := Inner.lack) (w := w) trivial g s hs
      rw [h] at h1
      exact ih' h1.tame

/-- Builtins with and without errors, an assignment and a function that is not called. -/
example : Inside (cs!"cd /tmp && pwd; x=1; readonly 'x'; unset -f \"f\" || jobs; g() { pwd; }; exit 3") := by decide +kernel

/-- The builtins that are left out, and words that are not literal, do start processes. -/
example : ([cs!"eval ls", cs!"cd \"`ls`\"", cs!"cd | ls"].map fun l => decide (Inside l)) = [false, false, false] := by
  decide +kernel
example : started (demo [cs!"eval ls"] [.st (.exited 100 0)]).trace = [[cs!"ls"]] := by decide +kernel
example : ¬ ∀ e ∈ (demo [cs!"cd \"`ls`\""] []).trace, startsNothing e := by
  intro h
  have : ∃ e ∈ (demo [cs!"cd \"`ls`\""] []).trace, (match e with | .subst .. => true | _ => false) = true := by
    decide +kernel
  obtain ⟨e, he, h2⟩ := this
  have h1 := h e he
  cases e <;> first | exact h1 | cases h2

end Rsh
