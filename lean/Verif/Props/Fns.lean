import Verif.Proofs.FnSim
import Verif.Props.Mini

/-!
# Property C164: sessions with functions
-/

namespace Rsh

open Spec

/-! ## The syntax of the small language -/

theorem oneWord_plain {x : Str} (h : PlainWord x) : OneWord x := by
  obtain ⟨h1, h2, h3⟩ := h
  cases x with
  | nil => exact absurd rfl h1
  | cons c x =>
    have key : ∀ d : Char, d ∉ special → d ∉ [';', '&', '|', '(', ')', '{', '}', '<', '>', '!', '$', '`', '*', '='] ∧
        d ∉ ['#', '"', '\''] := by
      intro d hd
      simp only [special, List.mem_cons, List.not_mem_nil, or_false, not_or] at hd ⊢
      obtain ⟨a1, a2, a3, a4, a5, a6, a7, a8, a9, a10, a11, a12, a13, a14, a15, a16, a17⟩ := hd
      exact ⟨⟨a1, a2, a3, a4, a5, a6, a7, a8, a9, a10, a11, a12, a13, a14⟩, a15, a16, a17⟩
    exact .plain (fun d hd => ⟨(h2 d hd).1, (key d (h2 d hd).2).1⟩) (key c (h2 c List.mem_cons_self).2).2 h3

theorem oneWord_mixed {w : Str} (h : MixedWord w) : OneWord w := by
  obtain ⟨⟨c, hc, hw, hs⟩, h2, h3⟩ := h
  cases w with
  | nil => cases hc
  | cons d w =>
    cases hc
    refine .plain (fun d hd => ⟨(h2 d hd).1, fun e => ?_⟩) (fun e => hs ?_) h3
    · have h' : d ∈ special := by
        simp only [special, List.mem_cons, List.not_mem_nil, or_false] at e ⊢
        rcases e with e | e | e | e | e | e | e | e | e | e | e | e | e | e <;> simp [e]
      have := (h2 d hd).2 h'
      simp only [List.mem_cons, List.not_mem_nil, or_false] at this
      rcases this with rfl | rfl | rfl <;> revert e <;> decide
    · simp only [special, List.mem_cons, List.not_mem_nil, or_false] at e ⊢
      rcases e with e | e | e <;> simp [e]

theorem oneWord_typed {a : MiniWord} (h : a.typed.Ok) : OneWord a.typed.text := by
  cases a with
  | plain w => exact oneWord_plain h
  | quoted t => exact .quoted (by simp) h
  | double t => exact .quoted (by simp) h
  | mixed w => exact oneWord_mixed h
  | var x =>
    refine .dollar fun d hd => ⟨(h.2 d hd).1, fun e => (h.2 d hd).2 ?_⟩
    simp only [special, List.mem_cons, List.not_mem_nil, or_false] at e ⊢
    rcases e with e | e | e | e | e | e | e | e | e | e | e | e | e | e <;> simp [e]

theorem fn_cmd_simple {x : Str} {as : List Typed} (hx : OneWord x) (ha : ∀ a ∈ as, OneWord a.text) :
    Simple (TCmd.command { name := some (.plain x), after := as.map .arg }) := by
  have hcmd : TCmd.command { name := some (.plain x), after := as.map .arg } =
      ⟨none, x, if as = [] then none else some ⟨[], as.map Typed.text⟩⟩ := by
    have h1 : ∀ as : List Typed, wordsOf (as.map .arg) = as.map Typed.text := by
      intro as
      induction as with
      | nil => rfl
      | cons a as ih => simp [wordsOf, ← ih]
    have h2 : ∀ as : List Typed, redirsOf (as.map .arg) = [] := by
      intro as
      induction as with
      | nil => rfl
      | cons a as ih => simpa [redirsOf] using ih
    simp [TCmd.command, Typed.text, h1, h2]
  rw [hcmd]
  refine ⟨by simp, ?_, .inl hx⟩
  intro p hp
  simp only at hp
  split at hp
  · cases hp
  · next hne =>
    cases hp
    refine ⟨by simp, fun a ha' => ?_, .inr (by simpa using hne)⟩
    obtain ⟨b, hb, rfl⟩ := List.mem_map.1 ha'
    exact .inl (ha b hb)

theorem fn_full_simple {w : World} {u : FnWorld} {s : Sh} {e : FullCmd} (h1 : FnCmdOk w u s e.toMiniCmd) (h2 : e.Ok w u) :
    Simple e.typed.command := by
  have hw1 : wordsOf (e.assigns.map fun a => .assign a.1 (.plain a.2)) = e.assigns.map fun a => a.1 ++ '=' :: a.2 := by
    generalize e.assigns = l
    induction l with
    | nil => rfl
    | cons a l ih => simp [wordsOf, ← ih, Typed.text]
  have hr1 : redirsOf (e.assigns.map fun a => .assign a.1 (.plain a.2)) = [] := by
    generalize e.assigns = l
    induction l with
    | nil => rfl
    | cons a l ih => simpa [redirsOf] using ih
  have hw2 : wordsOf ((e.args.map fun a => .arg a.typed) ++ e.redirs.map fun r => .redir none r.1 (.plain r.2)) =
      e.args.map fun a => a.typed.text := by
    generalize e.args = l
    induction l with
    | nil =>
      generalize e.redirs = l
      induction l with
      | nil => rfl
      | cons a l ih => simpa [wordsOf] using ih
    | cons a l ih => simp [wordsOf, ← ih]
  have hr2 : redirsOf ((e.args.map fun a => .arg a.typed) ++ e.redirs.map fun r => .redir none r.1 (.plain r.2)) =
      e.redirs.map fun r => ⟨none, some ⟨r.1, r.2⟩, none⟩ := by
    generalize e.args = l
    induction l with
    | nil =>
      generalize e.redirs = l
      induction l with
      | nil => rfl
      | cons a l ih => simpa [redirsOf, Typed.text] using ih
    | cons a l ih => simpa [redirsOf] using ih
  unfold FullCmd.typed TCmd.command
  simp only [hw1, hr1, hw2, hr2]
  refine ⟨fun p hp => ?_, fun p hp => ?_, .inl (oneWord_plain h1.plain)⟩
  · simp only at hp
    split at hp
    · cases hp
    · next hne =>
      cases hp
      refine ⟨by simp, fun a ha => ?_, .inr (by simpa using hne)⟩
      obtain ⟨b, hb, rfl⟩ := List.mem_map.1 ha
      exact ⟨b.1, b.2, oneWord_plain (h2.assigns b hb).1, oneWord_plain (h2.assigns b hb).2.1, rfl⟩
  · simp only at hp
    split at hp
    · cases hp
    · next hne =>
      cases hp
      refine ⟨fun r hr => ?_, fun a ha => ?_, ?_⟩
      · obtain ⟨d, hd, rfl⟩ := List.mem_map.1 hr
        exact .mk (by simp) (h2.redirs d hd).1 (oneWord_plain (h2.redirs d hd).2.1)
      · obtain ⟨b, hb, rfl⟩ := List.mem_map.1 ha
        exact .inl (oneWord_typed (h1.args b hb).1)
      · by_cases e1 : e.args = []
        · exact .inl (by simp_all)
        · exact .inr (by simpa using e1)

theorem fn_step_pipe {w : World} {u : FnWorld} {s : Sh} {t : MiniStep} (h : FnStepOk w u s t) :
    Pipe t.typed.pipeline := by
  cases t with
  | assign x q v =>
    have hcmd : (MiniStep.assign x q v).typed.pipeline =
        .mk false [.simple ⟨some ⟨[], [x ++ '=' :: (miniTyped q v).text]⟩, [], none⟩] false := by
      simp [MiniStep.typed, TPipe.pipeline, TPipe.cmds, assignment, TCmd.command, redirsOf, wordsOf]
    rw [hcmd]
    refine .mk (.one (.simple ⟨?_, by simp, .inr ⟨rfl, by simp, rfl⟩⟩)) (by simp)
    intro p hp
    cases hp
    refine ⟨by simp, ?_, .inr (by simp)⟩
    intro a ha
    simp only [List.mem_cons, List.not_mem_nil, or_false] at ha
    subst ha
    refine ⟨x, _, oneWord_plain h.1, ?_, rfl⟩
    have : (miniTyped q v).Ok := h.2.2.2.1
    cases q with
    | true => exact oneWord_typed (a := .quoted v) this
    | false => exact oneWord_plain this
  | cd a =>
    refine .mk (.one (.simple ?_)) (by simp [MiniStep.typed])
    exact fn_cmd_simple (x := cs!"cd") (as := [a.typed]) (oneWord_plain (by decide)) (by
      intro b hb
      simp only [List.mem_cons, List.not_mem_nil, or_false] at hb
      subst hb
      exact oneWord_typed h.1)
  | run c cs =>
    have hone : ∀ e ∈ c :: cs, Cmd (.simple e.typed.command) := by
      intro e he
      refine .simple ?_
      have := fn_cmd_simple (x := e.name) (as := e.args.map MiniWord.typed) (oneWord_plain (h e he).plain) (by
        intro b hb
        obtain ⟨a, ha, rfl⟩ := List.mem_map.1 hb
        exact oneWord_typed ((h e he).args a ha).1)
      rw [List.map_map] at this
      exact this
    refine .mk ?_ (by simp [MiniStep.typed])
    have he : (MiniStep.run c cs).typed.cmds = (c :: cs).map MiniCmd.typed := rfl
    refine cmds_of (by simp [he]) ?_
    intro x hx
    rw [he, List.map_map] at hx
    obtain ⟨e, hm, rfl⟩ := List.mem_map.1 hx
    exact hone e hm
  | «export» x q v =>
    have hcmd : (MiniStep.export x q v).typed.pipeline =
        .mk false [.simple ⟨none, cs!"export", some ⟨[], [x ++ '=' :: (miniTyped q v).text]⟩⟩] false := rfl
    rw [hcmd]
    refine .mk (.one (.simple ⟨by simp, ?_, .inl (oneWord_plain (show PlainWord (cs!"export") by decide))⟩)) (by simp)
    intro p hp
    cases hp
    refine ⟨by simp, ?_, .inr (by simp)⟩
    intro a ha
    simp only [List.mem_cons, List.not_mem_nil, or_false] at ha
    subst ha
    refine .inr ⟨x, _, oneWord_plain h.1, ?_, rfl⟩
    have : (miniTyped q v).Ok := h.2.2.2.1
    cases q with
    | true => exact oneWord_typed (a := .quoted v) this
    | false => exact oneWord_plain this
  | unset x g =>
    refine .mk (.one (.simple ?_)) (by simp [MiniStep.typed])
    cases g with
    | false =>
      exact fn_cmd_simple (x := cs!"unset") (as := [.plain x]) (oneWord_plain (by decide)) (by
        intro b hb
        simp only [List.mem_cons, List.not_mem_nil, or_false] at hb
        subst hb
        exact oneWord_plain h.1)
    | true =>
      exact fn_cmd_simple (x := cs!"unset") (as := [.plain (cs!"-v"), .plain x]) (oneWord_plain (by decide)) (by
        intro b hb
        simp only [List.mem_cons, List.not_mem_nil, or_false] at hb
        rcases hb with rfl | rfl
        · exact oneWord_plain (by decide)
        · exact oneWord_plain h.1)
  | eval a as =>
    refine .mk (.one (.simple ?_)) (by simp [MiniStep.typed])
    have := fn_cmd_simple (x := cs!"eval") (as := (a :: as).map MiniWord.typed) (oneWord_plain (by decide)) (by
      intro b hb
      obtain ⟨a, ha, rfl⟩ := List.mem_map.1 hb
      exact oneWord_typed (h a ha).1)
    rw [List.map_map] at this
    exact this
  | full c cs =>
    refine .mk ?_ (by simp [MiniStep.typed])
    have he : (MiniStep.full c cs).typed.cmds = (c :: cs).map FullCmd.typed := rfl
    refine cmds_of (by simp [he]) ?_
    intro x hx
    rw [he, List.map_map] at hx
    obtain ⟨e, hm, rfl⟩ := List.mem_map.1 hx
    exact .simple (fn_full_simple (h e hm).1 (h e hm).2)
  | pwd =>
    refine .mk (.one (.simple ?_)) (by simp [MiniStep.typed])
    exact fn_cmd_simple (x := cs!"pwd") (as := []) (oneWord_plain (by decide)) nofun
  | other b =>
    refine .mk (.one (.simple ?_)) (by simp [MiniStep.typed])
    have := fn_cmd_simple (x := b.name) (as := b.args.map .plain)
      (oneWord_plain (other_plain b)) (by
      intro x hx
      obtain ⟨a, ha, rfl⟩ := List.mem_map.1 hx
      exact oneWord_plain (h.2.1 a ha))
    rw [List.map_map] at this
    exact this
  | «return» c =>
    refine .mk (.one (.simple ?_)) (by simp [MiniStep.typed])
    exact fn_cmd_simple (x := cs!"return") (as := [.plain (intStr c)]) (oneWord_plain (by decide)) (by
      intro b hb
      simp only [List.mem_cons, List.not_mem_nil, or_false] at hb
      subst hb
      exact oneWord_plain (intStr_plain c))
  | source d p as =>
    refine .mk (.one (.simple ?_)) (by simp [MiniStep.typed])
    have := fn_cmd_simple (x := sourceName d) (as := .plain p :: as.map MiniWord.typed)
      (oneWord_plain (by cases d <;> decide)) (by
      intro b hb
      rcases List.mem_cons.1 hb with rfl | hb
      · exact oneWord_plain h.1
      · obtain ⟨a, ha, rfl⟩ := List.mem_map.1 hb
        exact oneWord_typed (h.2.2 a ha).1)
    rw [List.map_cons, List.map_map] at this
    exact this
  | exit code =>
    refine .mk (.one (.simple ?_)) (by simp [MiniStep.typed])
    have := fn_cmd_simple (x := cs!"exit") (as := code.toList.map fun c => .plain (intStr c))
      (oneWord_plain (by decide)) (by
      intro b hb
      obtain ⟨c, -, rfl⟩ := List.mem_map.1 hb
      exact oneWord_plain (intStr_plain c))
    rw [List.map_map] at this
    exact this

theorem fn_chain_tree {w : World} {u : FnWorld} {s : Sh} {c : MiniChain} (h : ∀ t ∈ c.steps, FnStepOk w u s t) :
    Chain c.typed.tree := by
  have key : ∀ (rs : List (CondExec × MiniStep)) (t : AndOr), Chain t → (∀ l ∈ rs, FnStepOk w u s l.2) →
      Chain ((rs.map fun l => (l.1, l.2.typed)).foldl (fun t l => .mk (some t) (some l.1) l.2.pipeline) t) := by
    intro rs
    induction rs with
    | nil => intro t ht _; exact ht
    | cons r rs ih =>
      intro t ht hok
      exact ih _ (.more ht (fn_step_pipe (hok r List.mem_cons_self))) fun l hl => hok l (List.mem_cons_of_mem _ hl)
  exact key c.rest _ (.one (fn_step_pipe (h c.first List.mem_cons_self)))
    fun l hl => h l.2 (List.mem_cons_of_mem _ (List.mem_map_of_mem hl))

theorem fn_program {w : World} {u : FnWorld} {s : Sh} (cs : List MiniChain) : ∀ (c : MiniChain),
    FnChainsOk w u s (c :: cs) → Program (treeOf (c :: cs)) := by
  induction cs with
  | nil => intro c h; exact .one (fn_chain_tree (h c List.mem_cons_self))
  | cons d cs ih =>
    intro c h
    exact .more (fn_chain_tree (h c List.mem_cons_self)) (ih d fun e he => h e (List.mem_cons_of_mem _ he))

/-! ## Sessions -/

theorem fn_item {w : World} {u : FnWorld} {s : Sh} {i : FnItem} (h : FnItemOk w u s i) : Chain i.tree := by
  cases i with
  | chain c => exact fn_chain_tree (h c List.mem_cons_self)
  | define f c cs => exact .one (.mk (.one (.func (oneWord_plain h.2.1) (fn_program cs c h.1))) (by simp))

theorem fn_items_program {w : World} {u : FnWorld} {s : Sh} (is : List FnItem) : ∀ (i : FnItem),
    (∀ j ∈ i :: is, FnItemOk w u s j) → Program ((i :: is).map FnItem.tree) := by
  induction is with
  | nil => intro i h; exact .one (fn_item (h i List.mem_cons_self))
  | cons j is ih =>
    intro i h
    exact .more (fn_item (h i List.mem_cons_self)) (ih j fun e he => h e (List.mem_cons_of_mem _ he))

theorem fn_line_program {w : World} {u : FnWorld} {s : Sh} {l : FnLine} (h : FnLineOk w u s l) :
    Program (l.items.map FnItem.tree) := fn_items_program l.rest l.first h

theorem FnSim.printed {w : World} {u : FnWorld} {all : List WRes} {s0 : Sh} {σ : FnState} {s : Sh}
    (h : FnSim w u (all, none) s0 σ s) (c : Option Chan) (t : Str) :
    FnSim w u (all, none) s0 σ { s with trace := .print c t :: s.trace } := by
  obtain ⟨h1, h2, h3, h4, h5, h6, h7, h8, h9, h10, h11, h12, h13, h14, h15, h16, -⟩ := h
  exact ⟨h1.trans rfl, h2, h3, h4, h5, h6, h7, h8, h9, h10, h11, h12, h13, h14, h15, h16, nofun⟩

/-- At the beginning of a line. -/
theorem FnSim.fresh {w : World} {u : FnWorld} {all : Tracked} {s0 : Sh} {σ : FnState} {s : Sh}
    (h : FnSim w u all s0 σ s) :
    FnSim w u (all.1, some (Spec.printed s.trace)) s0 { σ with stop := none, said := [] } s := by
  obtain ⟨h1, h2, h3, h4, h5, h6, h7, h8, h9, h10, h11, h12, h13, h14, h15, h16, -⟩ := h
  exact ⟨h1, h2, h3, h4, h5, h6, h7, h8, h9, h10, h11, h12, h13, h14, h15, h16, fun p hp => by cases hp; simp⟩

/-- What the shell has written is no longer followed. -/
theorem FnSim.loose {w : World} {u : FnWorld} {all : Tracked} {s0 : Sh} {σ : FnState} {s : Sh}
    (h : FnSim w u all s0 σ s) : FnSim w u (all.1, none) s0 σ s := by
  obtain ⟨h1, h2, h3, h4, h5, h6, h7, h8, h9, h10, h11, h12, h13, h14, h15, h16, -⟩ := h
  exact ⟨h1, h2, h3, h4, h5, h6, h7, h8, h9, h10, h11, h12, h13, h14, h15, h16, nofun⟩

theorem FnSim.defined {w : World} {u : FnWorld} {all : Tracked} {s0 : Sh} {σ : FnState} {s : Sh}
    (h : FnSim w u all s0 σ s) {f : Str} (hf : Unqualified f) {b : List MiniChain} (hb : FnChainsOk w u s0 b) :
    FnSim w u all s0 { σ with defs := fun g => if g = f then some b else σ.defs g }
      { s with masked := true, ctx := (s.ctx.addFunction f ⟨.braceGroup (treeOf b), none⟩).1 } := by
  obtain ⟨t, pre, post, -, -, -, a1, -, -, a2, a3, a4, -⟩ :=
    C42_define s.ctx f ⟨.braceGroup (treeOf b), none⟩ hf h.good.nonempty h.good.noRo
  have hg : Good (s.ctx.addFunction f ⟨.braceGroup (treeOf b), none⟩).1 := (Shape.addFunction _ _ _).good h.good
  generalize (s.ctx.addFunction f ⟨.braceGroup (treeOf b), none⟩).1 = m at a1 a2 a3 a4 hg
  have hval : ∀ y, Unqualified y → valueOf { s with masked := true, ctx := m } y = valueOf s y := by
    intro y hy
    unfold valueOf
    rw [CtxMgr.getVar_unqualified _ hy, CtxMgr.getVar_unqualified _ hy]
    show (m.stack.findSome? _).map _ = _
    rw [a4, findSome_congr fun i _ => a3 i y]
  exact {
    same := h.same.trans rfl
    scopes := by
      rw [← h.scopes]
      show scopesIn m m.stack = _
      rw [a4]
      exact List.map_congr_left fun i _ => by funext y; rw [a3 i y]
    clean := h.clean
    defs := fun g hg => by
      show m.getFunction g = _
      by_cases e : g = f
      · simp only [e, if_true]
        exact a1
      · simp only [e, if_false]
        rw [a2 g hg e]
        exact h.defs g hg
    bodies := fun g c hc => by
      simp only at hc
      split at hc
      · cases hc
        exact hb
      · exact h.bodies g c hc
    cwd := h.cwd
    status := h.status
    started := h.started
    table := h.table
    path := by
      rw [← h.path]
      unfold pathOf
      show (m.stack.getLast?.bind _) = _
      rw [a4]
      congr 1
      funext i
      congr 1
      exact a3 i (cs!"PATH")
    good := hg
    writable := fun x hx i hi b hb => by
      refine h.writable x hx i (by rw [← a4]; exact hi) b ?_
      rw [← a3 i x]
      exact hb
    ps1 := by
      rw [hval _ (unqualified_iff.2 rfl)]
      exact h.ps1
    ran := h.ran
    waits := h.waits
    env := h.env
    own := h.own }

theorem define_tree (w : World) (rec : List AndOr → M Int) (s : Sh) (hg : Good s.ctx) (f : Str) (l : List AndOr) :
    evalAndOr w rec (.mk none none (.mk false [.funcDef f (.mk (.braceGroup l) none)] false)) s =
      (.ok 0, { s with masked := true, ctx := (s.ctx.addFunction f ⟨.braceGroup l, none⟩).1 }) := by
  have hro : (s.ctx.addFunction f ⟨.braceGroup l, none⟩).2 = false := by
    unfold CtxMgr.addFunction
    have : ∀ i, ((s.ctx.heap i).addFunction f ⟨.braceGroup l, none⟩).2 = false := by
      intro i
      unfold Ctx.addFunction
      simp [hg.noRo i]
    split
    · exact this _
    · split
      · exact this _
      · rfl
  rw [evalAndOr]
  unfold evalPipeline Pipeline.seq evalCommands evalCommand addFunctionM interruptsOff
  simp only [bind_assoc, run_modS_bind, run_getS_bind, setCtxMgr, hro]
  rfl

theorem fn_items_stopped (u : FnWorld) (d : Nat) {σ : FnState} (h : σ.stopped = true) (is : List FnItem) :
    u.items d is σ = some σ := by
  induction is with
  | nil => rfl
  | cons i is ih =>
    have : u.item d σ i = some σ := by
      cases i with
      | chain c => exact fn_chain_stopped u _ h c
      | define f c cs => simp [FnWorld.item, h]
    rw [FnWorld.items, this]
    exact ih

/-- Parts of a line, one after the other. -/
theorem fn_items {w : World} {u : FnWorld} {all : Tracked} {s0 : Sh} (S : FnSetting w u s0) (n : Nat)
    (is : List FnItem) :
    ∀ {σ τ : FnState} {s : Sh} {st : Int}, FnSim w u all s0 σ s → σ.stopped = false → (∀ i ∈ is, FnItemOk w u s0 i) →
      u.items n is σ = some τ → Begins all.1 τ.flat →
      ∃ o s', evalListFrom w (evalFuel w n) st (is.map FnItem.tree) s = (o, s') ∧
        FnEnds w τ o s' ∧ FnSim w u all s0 τ s' := by
  induction is with
  | nil =>
    intro σ τ s st h hgo _ hr _
    cases hr
    refine ⟨_, s, rfl, ?_, h⟩
    have : σ.stop = none := by simpa [FnState.stopped] using hgo
    unfold FnEnds
    rw [this]
    exact ⟨st, rfl⟩
  | cons i is ih =>
    intro σ τ s st h hgo hok hr hb
    obtain ⟨ρ, hr1, hr2⟩ := Option.bind_eq_some_iff.1 hr
    have hb1 : Begins all.1 ρ.flat := hb.before (fn_later_items _ hr2)
    have hi := hok i List.mem_cons_self
    have hok' : ∀ j ∈ is, FnItemOk w u s0 j := fun j hj => hok j (List.mem_cons_of_mem _ hj)
    rw [List.map_cons, evalListFrom]
    cases i with
    | chain c =>
      obtain ⟨o2, s2, b1, b2, b3, -⟩ := fn_chain S (fn_body S n) (fn_later_body u n) h hgo (hi c List.mem_cons_self) hr1 hb1
      by_cases hs : ρ.stopped = true
      · rw [fn_items_stopped u n hs] at hr2
        cases hr2
        exact ⟨o2, s2, run_bind_stop b1 (b2.1.stop hs) _, b2.1, b3⟩
      · have b2 := b2.2 (by simpa using hs)
        subst b2
        obtain ⟨o3, s3, c1, c2, c3⟩ := ih (st := ρ.status) b3 (by simpa using hs) hok' hr2 hb
        exact ⟨o3, s3, by rw [show (FnItem.chain c).tree = c.typed.tree from rfl, run_bind_ok b1]; exact c1, c2, c3⟩
    | define f c cs =>
      have e : ρ = { σ with defs := fun g => if g = f then some (c :: cs) else σ.defs g } := by
        have := Option.some.inj hr1
        rw [if_neg (by simp [hgo])] at this
        exact this.symm
      subst e
      obtain ⟨o3, s3, c1, c2, c3⟩ := ih (st := 0) (h.defined hi.2.2 hi.1) hgo hok' hr2 hb
      refine ⟨o3, s3, ?_, c2, c3⟩
      rw [show (FnItem.define f c cs).tree = _ from rfl, FnItem.tree, run_bind_ok (define_tree w _ s h.good f _)]
      exact c1

theorem fn_line {w : World} {u : FnWorld} {all : Tracked} {s0 : Sh} (S : FnSetting w u s0)
    (n : Nat) {σ ρ : FnState} {s : Sh} (h : FnSim w u all s0 σ s) {l : FnLine} (hl : FnLineOk w u s0 l)
    (hr : u.line n σ l = some ρ) (hb : Begins all.1 ρ.flat) :
    ∃ cc o s', parse l.text = some (some cc) ∧ evalTop w (n + 1) (some cc) s = (o, s') ∧
      FnEnds w ρ o s' ∧ FnSim w u (all.1, none) s0 ρ s' ∧
      printed s'.trace = printed s.trace ++ ρ.said.map fun t => ((s0.fds.get 1).map FdE.chan, t) := by
  obtain ⟨o, s2, a1, a2, a3⟩ := fn_items S n l.items (st := -1) h.fresh rfl hl hr hb
  exact ⟨_, o, s2, parse_program (fn_line_program hl), a1, a2, a3.loose, a3.own _ rfl⟩

/-- The texts are those of the lines, in any layout; blank lines and comments may come between. -/
inductive Spec.ScriptOf : List Str → List FnLine → Prop
  | nil : ScriptOf [] []
  | skip {t ts ls} : parse t = some none → ScriptOf ts ls → ScriptOf (t :: ts) ls
  | line {t ts l ls} : parse t = parse l.text → ScriptOf ts ls → ScriptOf (t :: ts) (l :: ls)

theorem Spec.ScriptOf.texts : ∀ lines : List FnLine, ScriptOf (lines.map FnLine.text) lines
  | [] => .nil
  | _ :: ls => .line rfl (.texts ls)

theorem fn_session_ended {u : FnWorld} {n : Nat} {σ : FnState} (h : σ.ended.isSome = true) (ls : List FnLine) :
    u.session n σ ls = some σ := by
  cases ls with
  | nil => rfl
  | cons l ls => rw [FnWorld.session, if_pos h]

/-- Lines up to `exit`: those before lead back to the prompt. -/
def EndsWith (w : World) (n : Nat) (s : Sh) (ts : List Str) (c : Int) (s' : Sh) : Prop :=
  ∃ pre e post s1 s2, ts = pre ++ e :: post ∧ Visits w n s (pre.map .line) s1 ∧ prompt s1 = (.ok (), s2) ∧
    interactiveLine w n e s2 = (.exit c, s')

theorem EndsWith.cons {w : World} {n : Nat} {s s1 s' : Sh} {t : Str} {ts : List Str} {c : Int}
    (h1 : handle w n (.line t) s = (.ok (), s1)) (h2 : EndsWith w n s1 ts c s') : EndsWith w n s (t :: ts) c s' := by
  obtain ⟨pre, e, post, s2, s3, rfl, a2, a3, a4⟩ := h2
  exact ⟨t :: pre, e, post, s2, s3, rfl, .cons h1 a2, a3, a4⟩

theorem EndsWith.loop {w : World} {n : Nat} {s s' : Sh} {ts : List Str} {c : Int} (h : EndsWith w n s ts c s')
    (ins : List SessionIn) : interactiveLoop w n (ts.map .line ++ ins) s = (.exit c, s') := by
  obtain ⟨pre, e, post, s1, s2, rfl, a2, a3, a4⟩ := h
  rw [List.map_append, List.append_assoc, loop_visits a2 (by simp [GoesOnAfter]), List.map_cons, List.cons_append,
    loop_handle w n (.line e) trivial]
  refine run_bind_exit ?_ _
  show (do prompt; interactiveLine w n e : M Unit) s1 = _
  rw [run_bind_ok a3]
  exact a4

/-- What the shell itself writes on its standard output in a session: for every line the prompt, then what the commands
of the line say, and then a message if the line fails. -/
def Spec.FnWorld.talk (u : FnWorld) (d : Nat) : FnState → List Str → List FnLine → List Str
  | _, [], _ => []
  | σ, t :: ts, ls =>
    if σ.ended.isSome then []
    else (seen σ.scopes (cs!"PS1")).getD [] ::
      match parse t, ls with
      | some none, ls => u.talk d σ ts ls
      | _, [] => []
      | _, l :: ls =>
        match u.line d σ l with
        | none => []
        | some τ => τ.said ++ (match τ.stop with
            | some (.failed m) => [m ++ ['\n']]
            | _ => []) ++ u.talk d τ ts ls

theorem FnSim.prompts {w : World} {u : FnWorld} {all : Tracked} {s0 : Sh} {σ : FnState} {s : Sh}
    (h : FnSim w u all s0 σ s) : ∃ ps, valueOf s (cs!"PS1") = some ps ∧ (seen σ.scopes (cs!"PS1")).getD [] = ps := by
  obtain ⟨ps, hps⟩ := Option.ne_none_iff_exists'.1 h.ps1
  exact ⟨ps, hps, by rw [← h.scopes, ← seen_scopes s (unqualified_iff.2 rfl), hps]; rfl⟩

theorem printed_print (c : Option Chan) (t : Str) (tr : List Event) :
    printed (.print c t :: tr) = printed tr ++ [(c, t)] := by
  simp [printed]

theorem fn_session {w : World} {u : FnWorld} {all : List WRes} {s0 : Sh} (S : FnSetting w u s0)
    (n : Nat) {ts : List Str} {lines : List FnLine} (hs : ScriptOf ts lines) :
    ∀ {σ τ : FnState} {s : Sh}, FnSim w u (all, none) s0 σ s → σ.ended = none → (∀ l ∈ lines, FnLineOk w u s0 l) →
      u.session n σ lines = some τ → Begins all τ.flat →
      ∃ s', FnSim w u (all, none) s0 τ s' ∧ (τ.ended = none → Visits w (n + 1) s (ts.map .line) s') ∧
        (∀ c, τ.ended = some c → EndsWith w (n + 1) s ts c s' ∧ SavedLast w s') ∧
        printed s'.trace = printed s.trace ++ (u.talk n σ ts lines).map fun t => ((s0.fds.get 1).map FdE.chan, t) := by
  induction hs with
  | nil =>
    intro σ τ s h hgo _ hr _
    cases hr
    exact ⟨s, h, fun _ => .nil, fun c e => (by rw [hgo] at e; cases e), by simp [FnWorld.talk]⟩
  | @skip t ts ls hp _ ih =>
    intro σ τ s h hgo hok hr hb
    obtain ⟨ps, hps1, hps2⟩ := h.prompts
    have hfds : s.fds = s0.fds := by
      have := h.same
      unfold MiniSame at this
      rw [this]
    obtain ⟨s', d1, d2, d3, d4⟩ := ih (h.printed ((s.fds.get 1).map FdE.chan) ps) hgo hok hr hb
    have hone : handle w (n + 1) (.line t) s = (.ok (), { s with trace := .print ((s.fds.get 1).map FdE.chan) ps :: s.trace }) := by
      show (do prompt; interactiveLine w (n + 1) t : M Unit) s = _
      rw [run_bind_ok (prompt_some hps1)]
      unfold interactiveLine
      split
      · rfl
      · rw [hp]; rfl
    refine ⟨s', d1, fun e => .cons hone (d2 e), fun c e => ⟨.cons hone (d3 c e).1, (d3 c e).2⟩, ?_⟩
    rw [d4]
    simp [FnWorld.talk, hgo, hp, hps2, printed_print, hfds]
  | @line t ts l ls hp _ ih =>
    intro σ τ s h hgo hok hr hb
    rw [FnWorld.session, if_neg (by rw [hgo]; simp)] at hr
    obtain ⟨ρ, hr1, hr2⟩ := Option.bind_eq_some_iff.1 hr
    obtain ⟨ps, hps1, hps2⟩ := h.prompts
    have hfds : s.fds = s0.fds := by
      have := h.same
      unfold MiniSame at this
      rw [this]
    obtain ⟨cc, o, s2, b0, b1, b2, b3, b4⟩ := fn_line S n (h.printed ((s.fds.get 1).map FdE.chan) ps)
      (hok l List.mem_cons_self) hr1 (hb.before (fn_later_session ls hr2))
    rw [← hp] at b0
    have htalk : u.talk n σ (t :: ts) (l :: ls) = ps :: (ρ.said ++ (match ρ.stop with
        | some (.failed m) => [m ++ ['\n']]
        | _ => []) ++ u.talk n ρ ts ls) := by
      simp [FnWorld.talk, hgo, b0, hps2, hr1]
    simp only [printed_print, hfds] at b4
    rcases hend : ρ.ended with _ | c
    case some =>
      rw [fn_session_ended (by rw [hend]; rfl)] at hr2
      cases hr2
      obtain ⟨rfl, b2'⟩ := b2.exit hend
      refine ⟨s2, b3, fun e => (by rw [hend] at e; cases e), fun c' e => ?_, ?_⟩
      · rw [hend] at e
        cases e
        refine ⟨⟨[], t, ts, s, _, rfl, .nil, prompt_some hps1, ?_⟩, b2'⟩
        unfold interactiveLine
        rw [if_neg (fun e => by rw [e] at b0; cases b0), b0]
        simp only
        refine run_bind_exit ?_ _
        rw [run_tryE, b1]
      · rw [htalk, b4, FnState.ended_some hend]
        have : u.talk n τ ts ls = [] := by
          cases ts with
          | nil => simp [FnWorld.talk]
          | cons t ts => unfold FnWorld.talk; rw [if_pos (by rw [hend]; rfl)]
        rw [this]
        simp
    obtain ⟨s3, c1, c2, c3⟩ : ∃ s3, interactiveLine w (n + 1) t
        { s with trace := .print ((s.fds.get 1).map FdE.chan) ps :: s.trace } = (.ok (), s3) ∧ FnSim w u (all, none) s0 ρ s3 ∧
        printed s3.trace = printed s2.trace ++ (match ρ.stop with
          | some (.failed m) => [m ++ ['\n']]
          | _ => []).map fun t => ((s0.fds.get 1).map FdE.chan, t) := by
      unfold interactiveLine
      rw [if_neg (fun e => by rw [e] at b0; cases b0), b0]
      simp only
      have hfds2 : s2.fds = s0.fds := by
        have := b3.same
        unfold MiniSame at this
        rw [this]
      unfold FnEnds at b2
      split at b2
      · next hst =>
        obtain ⟨r, rfl⟩ := b2
        exact ⟨s2, by rw [run_bind_ok (run_tryE_ok b1)]; rfl, b3, by simp [hst]⟩
      · next m hst =>
        subst b2
        exact ⟨_, by rw [run_bind_ok (run_tryE_err b1)]; rfl, b3.printed _ _, by simp [hst, printed_print, hfds2]⟩
      · next c hst => simp [FnState.ended, hst] at hend
    obtain ⟨s', d1, d2, d3, d4⟩ := ih c2 hend (fun l' h => hok l' (List.mem_cons_of_mem _ h)) hr2 hb
    have hone : handle w (n + 1) (.line t) s = (.ok (), s3) := by
      show (do prompt; interactiveLine w (n + 1) t : M Unit) s = _
      rw [run_bind_ok (prompt_some hps1)]
      exact c1
    refine ⟨s', d1, fun e => .cons hone (d2 e), fun c e => ⟨.cons hone (d3 c e).1, (d3 c e).2⟩, ?_⟩
    rw [d4, c3, b4, htalk]
    simp

/-- The shell at the prompt, when there are no jobs; the lines are typed properly; the outside world is as the reference
assumes; `defs` are the functions of the shell. -/
structure Spec.FnOk (w : World) (u : FnWorld) (defs : Str → Option (List MiniChain)) (s : Sh) (lines : List FnLine) :
    Prop where
  prompt : AtPrompt w s
  ps1 : valueOf s (cs!"PS1") ≠ none
  values : ∀ i ∈ s.ctx.stack, ∀ x b, Unqualified x → varIn s.ctx x i = some b → CleanValue b.value
  params : ∀ i, Writable s.ctx (natStr i)
  defined : ∀ f, Unqualified f → Defined defs s f
  bodies : ∀ f b, defs f = some b → FnChainsOk w u s b
  jobs : s.jc.table = []
  noAlias : s.aliases.get [] = none ∧ s.aliases.get (cs!"cd") = none ∧ s.aliases.get (cs!"export") = none ∧
    s.aliases.get (cs!"unset") = none ∧ s.aliases.get (cs!"exit") = none ∧ s.aliases.get (cs!"source") = none ∧
    s.aliases.get (cs!"eval") = none ∧ s.aliases.get (cs!"return") = none ∧ s.aliases.get (cs!"pwd") = none ∧
    s.aliases.get (cs!".") = none
  msgs : w.osMsg = u.osMsg ∧ ∀ t, w.parseMsg t = u.parseMsg t
  texts : ∀ t r, u.means t = some r → TextIs w u s t r
  files : ∀ p r, u.text p = some r → FileIs w u s p r
  absent : ∀ x, u.missing x = true → Absent w s x
  res : Resources w
  pids : ∀ tr, w.fork tr = some (u.pid (forks tr))
  inj : ∀ i j, u.pid i = u.pid j → i = j
  dirs : ∀ tr c d, w.chdir tr c d = u.dirs c d
  lines : ∀ l ∈ lines, FnLineOk w u s l

/-- C164: lines as in C162, also with `export`, `unset`, `exit`, `return`, `source` and `eval`, assignments before and
redirections of external commands, and definitions of functions; a
command may be the call of a function.  The layout of the lines is free, and comments and empty lines may come between.  Calls may be nested, functions
may call themselves, and files may be read in functions and in files.  If the reference interpreter gets through the
session with these nested at most `n` deep, then so does the shell, if it has room for as many: it runs the pipelines that the reference runs, in the same
order, each with the arguments, in the directory, with the environment and the redirections the reference gives; no other process is
started.  Each line leads back to the prompt, unless the reference comes to `exit`, wherever that is: then the shell ends
with the same status, and the last thing it does is to save the history.  The shell itself writes the prompt for each line,
what `pwd` says (also in functions and files), and the message for each line that fails; nothing else on its standard output.  In the end the variables, the functions, the
environment, the directory and the status are those of the reference. -/
theorem C164_session (w : World) (u : FnWorld) (defs : Str → Option (List MiniChain)) (s : Sh) (lines : List FnLine)
    (h : FnOk w u defs s lines) (ts : List Str) (ht : ScriptOf ts lines) (n : Nat) (τ : FnState)
    (hr : u.session n (.of s defs) lines = some τ) (rest : List WRes) (hw : s.waits = τ.reported ++ rest)
    (he : .eintr ∉ rest) :
    ∃ s', (τ.ended = none → Visits w (n + 1) s (ts.map .line) s' ∧
        ∀ ins, interactiveLoop w (n + 1) (ts.map .line ++ ins) s = interactiveLoop w (n + 1) ins s') ∧
      (∀ c, τ.ended = some c → SavedLast w s' ∧
        ∀ ins, interactiveLoop w (n + 1) (ts.map .line ++ ins) s = (.exit c, s')) ∧
      (∀ x, Unqualified x → valueOf s' x = seen τ.scopes x) ∧
      (∀ f, Unqualified f → Defined τ.defs s' f) ∧
      s'.cwd = τ.cwd ∧
      s'.exitStatus = τ.recorded ∧
      (∃ groups, FnRan (fun x => (u.file x).getD []) s τ.ran groups ∧
        execs s'.trace = execs s.trace ++ groups.flatten) ∧
      forks s'.trace = τ.started ∧
      printed s'.trace = printed s.trace ++ (u.talk n (.of s defs) ts lines).map (fun t => ((s.fds.get 1).map FdE.chan, t)) ∧
      s'.jc.table = [] ∧ s'.waits = rest ∧
      s'.aliases = s.aliases ∧ (∀ x, s'.env.get x = (τ.exports.lookup x).or (s.env.get x)) ∧ s'.fds = s.fds ∧ s'.disp = s.disp := by
  have S : FnSetting w u s := {
    res := h.res
    pids := h.pids
    inj := h.inj
    dirs := h.dirs
    fds := AtPrompt_resources_fds h.res h.prompt
    held := (AtPrompt_own h.prompt).2.1
    own := (AtPrompt_own h.prompt).2.2
    forked := (AtPrompt_own h.prompt).1
    noAlias := h.noAlias
    msgs := h.msgs
    texts := h.texts
    files := h.files
    absent := h.absent
    params := h.params }
  have start : FnSim w u (s.waits, none) s (.of s defs) s := {
    same := rfl
    scopes := rfl
    clean := by
      intro sc hsc x v hx e
      obtain ⟨i, hi, rfl⟩ := List.mem_map.1 hsc
      obtain ⟨b, hb, rfl⟩ := Option.map_eq_some_iff.1 e
      exact h.values i hi x b hx hb
    defs := h.defined
    bodies := h.bodies
    cwd := rfl
    status := rfl
    started := rfl
    table := h.jobs
    path := rfl
    good := AtPrompt_good h.prompt
    writable := fun _ h => h
    ps1 := h.ps1
    ran := ⟨[], .nil, by simp⟩
    waits := rfl
    env := fun _ => rfl
    own := nofun }
  obtain ⟨s', a2, a1, a3, a4⟩ := fn_session S n ht start rfl h.lines hr ⟨rest, hw, he⟩
  have hsame := a2.same
  unfold MiniSame at hsame
  refine ⟨s', fun e => ⟨a1 e, loop_visits (a1 e) (by simp [GoesOnAfter])⟩,
    fun c e => ⟨(a3 c e).2, (a3 c e).1.loop⟩, fun x hx => ?_, a2.defs, a2.cwd, a2.status, a2.ran, a2.started, a4,
    a2.table, ?_, by rw [hsame], a2.env, by rw [hsame], by rw [hsame]⟩
  · rw [seen_scopes s' hx, a2.scopes]
  · have := a2.waits
    rw [hw] at this
    exact List.append_cancel_left this

/-! An example. -/

/-- The line ` x=1 ; again ( ) { make $1 && again b ; y=2 } ; again a`. -/
def Spec.fnFirst : FnLine :=
  { first := .chain { first := .assign (cs!"x") false (cs!"1") }
    rest := [
      .define (cs!"again")
        { first := .run ⟨cs!"make", [.var (cs!"1")]⟩ [], rest := [(.and, .run ⟨cs!"again", [.plain (cs!"b")]⟩ [])] }
        [{ first := .assign (cs!"y") false (cs!"2") }],
      .chain { first := .run ⟨cs!"again", [.plain (cs!"a")]⟩ [] }] }

/-- The line ` export y='3 4' && unset x ; mail $1 $y`. -/
def Spec.fnSecond : FnLine :=
  { first := .chain { first := .export (cs!"y") true (cs!"3 4"), rest := [(.and, .unset (cs!"x"))] }
    rest := [.chain { first := .run ⟨cs!"mail", [.var (cs!"1"), .var (cs!"y")]⟩ [] }] }

/-- Both. -/
def Spec.fnLines : List FnLine := [fnFirst, fnSecond]

/-- The second process exits with 2, the others with 0. -/
def Spec.fnWorld : FnWorld where
  pid := (100 + ·)
  code k := if k = 1 then 2 else 0
  dirs _ d := if d = cs!"/nope" then none else some d
  file x := if x = cs!"make" ∨ x = cs!"mail" then some (cs!"/bin/" ++ x) else none

example : fnLines.map FnLine.text =
    [cs!" x=1 ; again ( ) { make $1 && again b ; y=2 } ; again a", cs!" export y='3 4' && unset x ; mail $1 $y"] := by decide

/-- There are no functions and variables. -/
def Spec.fnStart : FnState :=
  { scopes := [fun _ => none], defs := fun _ => none, cwd := cs!"/", status := 0, recorded := 0, started := 0 }

/-- What is run: the function calls itself, with another argument.  Afterwards the arguments are gone; `y` was set in the
innermost scope, that is, the one of the call; the last program gets the one exported. -/
example : (fnWorld.session 2 fnStart fnLines).map (·.ran) =
      some [⟨cs!"/", [], [[cs!"make", cs!"a"]], [], [], [false]⟩, ⟨cs!"/", [], [[cs!"make", cs!"b"]], [], [], [false]⟩,
        ⟨cs!"/", [(cs!"y", cs!"3 4")], [[cs!"mail", cs!"$1", cs!"3 4"]], [], [], [false]⟩] ∧
    (fnWorld.session 1 fnStart fnLines).isNone := by decide

/-- What the operating system reports in this example. -/
def Spec.fnReports : List WRes := ((fnWorld.session 2 fnStart fnLines).map (·.reported)).getD []

theorem fnLines_ok : FnOk (demoWorld []) fnWorld (fun _ => none) (atPrompt [] fnReports) fnLines := by
  have hwr : ∀ x, Writable (atPrompt [] fnReports).ctx x := by
    intro x i hi b hb
    have : ∀ i ∈ (atPrompt [] fnReports).ctx.stack, ∀ p ∈ ((atPrompt [] fnReports).ctx.heap i).vars,
        p.2.readonly = false := by decide +kernel
    exact this i hi _ (lookup_mem hb)
  have hpath : pathOf (atPrompt [] fnReports) = some (cs!"/bin") := by decide +kernel
  have cmd : ∀ e : MiniCmd, (e.name ∈ [cs!"make", cs!"mail", cs!"again"] ∧ ∀ a ∈ e.args, a.Ok) →
      FnCmdOk (demoWorld []) fnWorld (atPrompt [] fnReports) e := by
    rintro ⟨x, as⟩ ⟨hx, ha⟩
    have : PlainWord x ∧ x ∉ builtins ∧ (atPrompt [] fnReports).aliases.get x = none ∧
        '\x00' ∉ x ∧ hasSub (cs!"::") x = false ∧ endsWith (cs!"nope") (cs!"/bin/" ++ x) = false := by
      clear ha
      replace hx : x ∈ [cs!"make", cs!"mail", cs!"again"] := hx
      revert x
      decide +kernel
    obtain ⟨h1, h2, h3, h4, h5, h6⟩ := this
    refine ⟨h1, h2, h3, h4, unqualified_iff.2 h5, ha, fun p hp => ?_⟩
    simp only [fnWorld] at hp
    split at hp
    · cases hp
      exact demo_runnable hpath h6 h4
    · cases hp
  have word : ∀ x, Typed.Ok (.var x) → '\x00' ∉ x → hasSub (cs!"::") x = false → (MiniWord.var x).Ok := by
    intro x h1 h2 h3
    exact ⟨h1, by simpa [MiniWord.typed, Typed.text] using h2, unqualified_iff.2 h3⟩
  have pword : ∀ x, Typed.Ok (.plain x) → '\x00' ∉ x → (MiniWord.plain x).Ok := fun x h1 h2 => ⟨h1, h2, trivial⟩
  exact {
    prompt := atPrompt_ok (by decide +kernel)
    ps1 := by decide +kernel
    values := by
      intro i hi x b _ hb
      have : ∀ i ∈ (atPrompt [] fnReports).ctx.stack, ∀ p ∈ ((atPrompt [] fnReports).ctx.heap i).vars,
          CleanValue p.2.value := by decide +kernel
      exact this i hi _ (lookup_mem hb)
    params := fun i => hwr _
    defined := by
      intro f hf
      unfold Defined
      rw [CtxMgr.getFunction_unqualified _ hf]
      have : ∀ i ∈ (atPrompt [] fnReports).ctx.stack, ((atPrompt [] fnReports).ctx.heap i).funcs = [] := by
        decide +kernel
      rw [List.findSome?_eq_none_iff.2]
      · rfl
      · intro i hi
        unfold funcIn
        rw [this i hi]
        rfl
    bodies := fun f b h => nomatch h
    jobs := by decide +kernel
    noAlias := by decide +kernel
    msgs := ⟨rfl, fun _ => rfl⟩
    texts := fun _ _ h => nomatch h
    files := fun _ _ h => nomatch h
    absent := fun _ h => nomatch h
    res := demo_resources []
    pids := fun _ => rfl
    inj := fun i j h => by simpa [fnWorld] using h
    dirs := fun _ _ _ => rfl
    lines := by
      intro l hl
      simp only [fnLines, fnFirst, fnSecond, List.mem_cons, List.not_mem_nil, or_false] at hl
      rcases hl with rfl | rfl <;> intro i hi <;>
        simp only [FnLine.items, List.mem_cons, List.not_mem_nil, or_false] at hi
      · rcases hi with rfl | rfl | rfl
        · intro c hc t ht
          rw [List.mem_singleton.1 hc] at ht
          rw [List.mem_singleton.1 ht]
          exact ⟨by decide, ⟨by decide, by decide, unqualified_iff.2 rfl, rfl⟩, by decide, by decide, by decide, by decide,
            by decide, hwr _⟩
        · refine ⟨?_, by decide, unqualified_iff.2 rfl⟩
          intro c hc t ht
          simp only [List.mem_cons, List.not_mem_nil, or_false] at hc
          rcases hc with rfl | rfl <;> simp only [MiniChain.steps, List.map_cons, List.map_nil, List.mem_cons,
            List.not_mem_nil, or_false] at ht
          · rcases ht with rfl | rfl <;> intro e he <;> simp only [List.mem_cons, List.not_mem_nil, or_false] at he <;>
              subst he
            · exact cmd _ ⟨by decide, by simpa using word _ (by decide) (by decide) (by decide)⟩
            · exact cmd _ ⟨by decide, by simpa using pword _ (by decide) (by decide)⟩
          · subst ht
            exact ⟨by decide, ⟨by decide, by decide, unqualified_iff.2 rfl, rfl⟩, by decide, by decide, by decide, by decide,
              by decide, hwr _⟩
        · intro c hc t ht
          rw [List.mem_singleton.1 hc] at ht
          rw [List.mem_singleton.1 ht]
          intro e he
          simp only [List.mem_cons, List.not_mem_nil, or_false] at he
          subst he
          exact cmd _ ⟨by decide, by simpa using pword _ (by decide) (by decide)⟩
      · rcases hi with rfl | rfl <;> intro c hc t ht <;> rw [List.mem_singleton.1 hc] at ht <;>
          simp only [MiniChain.steps, List.map_cons, List.map_nil, List.mem_cons, List.not_mem_nil, or_false] at ht
        · rcases ht with rfl | rfl
          · exact ⟨by decide, ⟨by decide, by decide, unqualified_iff.2 rfl, rfl⟩, by decide, by decide, by decide, by decide,
              by decide, fun ⟨a, b, e⟩ => (hasSub_false _ _).1 (by decide) a b e⟩
          · exact ⟨by decide, unqualified_iff.2 rfl, by decide, by decide, by decide⟩
        · subst ht
          intro e he
          simp only [List.mem_cons, List.not_mem_nil, or_false] at he
          subst he
          refine cmd _ ⟨by decide, ?_⟩
          intro a ha
          simp only [List.mem_cons, List.not_mem_nil, or_false] at ha
          rcases ha with rfl | rfl
          · exact word _ (by decide) (by decide) (by decide)
          · exact word _ (by decide) (by decide) (by decide) }

/-- The hypotheses are met. -/
example : ∃ s', Visits (demoWorld []) (2 + 1) (atPrompt [] fnReports) (fnLines.map fun l => .line l.text) s' ∧
    valueOf s' (cs!"x") = none ∧ valueOf s' (cs!"y") = some (cs!"3 4") ∧ s'.exitStatus = 0 ∧ s'.waits = [] := by
  obtain ⟨τ, hτ, h1, h2, h3, h4, h5⟩ : ∃ τ, fnWorld.session 2 (.of (atPrompt [] fnReports) fun _ => none) fnLines = some τ ∧
      (atPrompt [] fnReports).waits = τ.reported ++ [] ∧ seen τ.scopes (cs!"x") = none ∧
      seen τ.scopes (cs!"y") = some (cs!"3 4") ∧ τ.recorded = 0 ∧ τ.ended = none := by
    have : ((fnWorld.session 2 (.of (atPrompt [] fnReports) fun _ => none) fnLines).any fun τ =>
      decide ((atPrompt [] fnReports).waits = τ.reported ++ [] ∧ seen τ.scopes (cs!"x") = none ∧
      seen τ.scopes (cs!"y") = some (cs!"3 4") ∧ τ.recorded = 0 ∧ τ.ended = none)) = true := by decide +kernel
    obtain ⟨τ, h1, h2⟩ := (Option.any_eq_true _ _).1 this
    exact ⟨τ, h1, of_decide_eq_true h2⟩
  obtain ⟨s', a1, -, a2, -, -, a4, -, -, -, -, a5, -⟩ := C164_session _ _ _ _ fnLines fnLines_ok _ (.texts _) 2 τ hτ [] h1 (by simp)
  exact ⟨s', (a1 h5).1, (a2 _ (unqualified_iff.2 rfl)).trans h2, (a2 _ (unqualified_iff.2 rfl)).trans h3, a4.trans h4, a5⟩

/-! An example with `exit` in a function. -/

/-- The line ` leave ( ) { exit 4 ; y=5 } ; leave && mail`. -/
def Spec.fnQuit : FnLine :=
  { first := .define (cs!"leave") { first := .exit (some 4) } [{ first := .assign (cs!"y") false (cs!"5") }]
    rest := [.chain { first := .run ⟨cs!"leave", []⟩ [], rest := [(.and, .run ⟨cs!"mail", []⟩ [])] }] }

example : fnQuit.text = cs!" leave ( ) { exit 4 ; y=5 } ; leave && mail" := by decide +kernel

theorem fnQuit_ok {w : World} {s : Sh} (ha : s.aliases = []) (hw : ∀ x, Writable s.ctx x)
    (hr : ∀ tr, Runnable w s tr (cs!"mail") (cs!"/bin/mail")) : FnLineOk w fnWorld s fnQuit := by
  intro i hi
  simp only [fnQuit, FnLine.items, List.mem_cons, List.not_mem_nil, or_false] at hi
  rcases hi with rfl | rfl
  · refine ⟨?_, by decide, unqualified_iff.2 rfl⟩
    intro c hc t ht
    simp only [List.mem_cons, List.not_mem_nil, or_false] at hc
    rcases hc with rfl | rfl <;> rw [List.mem_singleton.1 ht]
    · rintro c ⟨⟩
      unfold Code
      omega
    · exact ⟨by decide, ⟨by decide, by decide, unqualified_iff.2 rfl, rfl⟩, by decide, by decide, by decide, by decide,
        by decide, hw _⟩
  · intro c hc t ht
    rw [List.mem_singleton.1 hc] at ht
    simp only [MiniChain.steps, List.map_cons, List.map_nil, List.mem_cons, List.not_mem_nil, or_false] at ht
    rcases ht with rfl | rfl <;> intro e he <;> rw [List.mem_singleton.1 he]
    · exact ⟨by decide, by decide, by rw [ha]; rfl, by decide, unqualified_iff.2 rfl, by simp, nofun⟩
    · exact ⟨by decide, by decide, by rw [ha]; rfl, by decide, unqualified_iff.2 rfl, by simp, fun p hp => by
        cases hp; exact hr⟩

theorem fnQuit_session : FnOk (demoWorld []) fnWorld (fun _ => none) (atPrompt [] fnReports) (fnLines ++ [fnQuit, fnSecond]) :=
  { fnLines_ok with
    lines := by
      intro l hl
      simp only [List.mem_append, List.mem_cons, List.not_mem_nil, or_false] at hl
      rcases hl with hl | rfl | rfl
      · exact fnLines_ok.lines l hl
      · refine fnQuit_ok (by decide +kernel) (fun x i hi b hb => ?_) fun tr => ?_
        · have : ∀ i ∈ (atPrompt [] fnReports).ctx.stack, ∀ p ∈ ((atPrompt [] fnReports).ctx.heap i).vars,
              p.2.readonly = false := by decide +kernel
          exact this i hi _ (lookup_mem hb)
        · exact demo_runnable (s := atPrompt [] fnReports) (name := cs!"mail") (by decide +kernel) (by decide) (by decide) tr
      · exact fnLines_ok.lines fnSecond (by simp [fnLines]) }

/-- The shell ends with status 4; `y` is still what it was, and nothing is run any more, neither `mail` nor the lines that
follow. -/
example (ins : List SessionIn) : ∃ s', interactiveLoop (demoWorld []) (2 + 1)
      ((fnLines ++ [fnQuit, fnSecond]).map (fun l => .line l.text) ++ ins) (atPrompt [] fnReports) = (.exit 4, s') ∧
    valueOf s' (cs!"y") = some (cs!"3 4") ∧ s'.waits = [] ∧ SavedLast (demoWorld []) s' := by
  obtain ⟨τ, hτ, h1, h3, h5⟩ : ∃ τ, fnWorld.session 2 (.of (atPrompt [] fnReports) fun _ => none)
        (fnLines ++ [fnQuit, fnSecond]) = some τ ∧
      (atPrompt [] fnReports).waits = τ.reported ++ [] ∧
      seen τ.scopes (cs!"y") = some (cs!"3 4") ∧ τ.ended = some 4 := by
    have : ((fnWorld.session 2 (.of (atPrompt [] fnReports) fun _ => none) (fnLines ++ [fnQuit, fnSecond])).any fun τ =>
      decide ((atPrompt [] fnReports).waits = τ.reported ++ [] ∧
      seen τ.scopes (cs!"y") = some (cs!"3 4") ∧ τ.ended = some 4)) = true := by decide +kernel
    obtain ⟨τ, h1, h2⟩ := (Option.any_eq_true _ _).1 this
    exact ⟨τ, h1, of_decide_eq_true h2⟩
  obtain ⟨s', -, a1, a2, -, -, -, -, -, -, -, a5, -⟩ := C164_session _ _ _ _ _ fnQuit_session _ (.texts _) 2 τ hτ [] h1 (by simp)
  have e := (a1 4 h5).2 ins
  rw [List.map_map] at e
  exact ⟨s', e, (a2 _ (unqualified_iff.2 rfl)).trans h3, a5, (a1 4 h5).1⟩

/-! An example with a file that reads itself. -/

/-- The file `/lib/a`: ` make $1 && source /lib/a b`. -/
def Spec.fnLib : MiniChain :=
  { first := .run ⟨cs!"make", [.var (cs!"1")]⟩ [], rest := [(.and, .source false (cs!"/lib/a") [.plain (cs!"b")])] }

def Spec.fnLibText : Str := cs!" make $1 && source /lib/a b"

/-- The line ` source /lib/a a ; mail $1 && . /lib/b ; mail`. -/
def Spec.fnReads : FnLine :=
  { first := .chain { first := .source false (cs!"/lib/a") [.plain (cs!"a")] }
    rest := [.chain { first := .run ⟨cs!"mail", [.var (cs!"1")]⟩ [], rest := [(.and, .source true (cs!"/lib/b") [])] },
      .chain { first := .run ⟨cs!"mail", []⟩ [] }] }

example : fnReads.text = cs!" source /lib/a a ; mail $1 && . /lib/b ; mail" := by decide +kernel

/-- There is `/lib/a`, but not `/lib/b`. -/
def Spec.fnLibWorld : FnWorld :=
  { fnWorld with
    text := fun p => if p = cs!"/lib/a" then some (some [fnLib]) else if p = cs!"/lib/b" then some none else none }

def Spec.fnLibFiles : AMap Str := [(cs!"/lib/a", fnLibText)]

/-- The file is read twice, the second time with another argument, which stays when it is over.  As the other file is
missing, the rest of the line is not run. -/
example : (fnLibWorld.session 2 fnStart [fnReads]).map (·.ran) =
      some [⟨cs!"/", [], [[cs!"make", cs!"a"]], [], [], [false]⟩, ⟨cs!"/", [], [[cs!"make", cs!"b"]], [], [], [false]⟩, ⟨cs!"/", [], [[cs!"mail", cs!"b"]], [], [], [false]⟩] ∧
    (fnLibWorld.session 1 fnStart [fnReads]).isNone := by decide

/-- What the operating system reports in this example. -/
def Spec.fnLibReports : List WRes := ((fnLibWorld.session 2 fnStart [fnReads]).map (·.reported)).getD []

theorem fnReads_ok : FnOk (demoWorld fnLibFiles) fnLibWorld (fun _ => none) (atPrompt [] fnLibReports fnLibFiles) [fnReads] := by
  have hwr : ∀ x, Writable (atPrompt [] fnLibReports fnLibFiles).ctx x := by
    intro x i hi b hb
    have : ∀ i ∈ (atPrompt [] fnLibReports fnLibFiles).ctx.stack,
        ∀ p ∈ ((atPrompt [] fnLibReports fnLibFiles).ctx.heap i).vars, p.2.readonly = false := by decide +kernel
    exact this i hi _ (lookup_mem hb)
  have hpath : pathOf (atPrompt [] fnLibReports fnLibFiles) = some (cs!"/bin") := by decide +kernel
  have cmd : ∀ e : MiniCmd, (e.name ∈ [cs!"make", cs!"mail"] ∧ ∀ a ∈ e.args, a.Ok) →
      FnCmdOk (demoWorld fnLibFiles) fnLibWorld (atPrompt [] fnLibReports fnLibFiles) e := by
    rintro ⟨x, as⟩ ⟨hx, ha⟩
    have : PlainWord x ∧ x ∉ builtins ∧ (atPrompt [] fnLibReports fnLibFiles).aliases.get x = none ∧
        '\x00' ∉ x ∧ hasSub (cs!"::") x = false ∧ endsWith (cs!"nope") (cs!"/bin/" ++ x) = false := by
      clear ha
      replace hx : x ∈ [cs!"make", cs!"mail"] := hx
      revert x
      decide +kernel
    obtain ⟨h1, h2, h3, h4, h5, h6⟩ := this
    refine ⟨h1, h2, h3, h4, unqualified_iff.2 h5, ha, fun p hp => ?_⟩
    simp only [fnLibWorld, fnWorld] at hp
    split at hp
    · cases hp
      exact demo_runnable hpath h6 h4
    · cases hp
  have word : (MiniWord.var (cs!"1")).Ok := ⟨by decide, by decide, unqualified_iff.2 rfl⟩
  have lib : FnChainsOk (demoWorld fnLibFiles) fnLibWorld (atPrompt [] fnLibReports fnLibFiles) [fnLib] := by
    intro c hc t ht
    rw [List.mem_singleton.1 hc] at ht
    simp only [fnLib, MiniChain.steps, List.map_cons, List.map_nil, List.mem_cons, List.not_mem_nil, or_false] at ht
    rcases ht with rfl | rfl
    · intro e he
      rw [List.mem_singleton.1 he]
      exact cmd _ ⟨by decide, by simpa using word⟩
    · exact ⟨by decide, by decide, by
        intro a ha
        rw [List.mem_singleton.1 ha]
        exact ⟨by decide, by decide, trivial⟩⟩
  exact {
    prompt := atPrompt_ok (by decide +kernel)
    ps1 := by decide +kernel
    values := by
      intro i hi x b _ hb
      have : ∀ i ∈ (atPrompt [] fnLibReports fnLibFiles).ctx.stack,
          ∀ p ∈ ((atPrompt [] fnLibReports fnLibFiles).ctx.heap i).vars, CleanValue p.2.value := by decide +kernel
      exact this i hi _ (lookup_mem hb)
    params := fun i => hwr _
    defined := by
      intro f hf
      unfold Defined
      rw [CtxMgr.getFunction_unqualified _ hf]
      have : ∀ i ∈ (atPrompt [] fnLibReports fnLibFiles).ctx.stack,
          ((atPrompt [] fnLibReports fnLibFiles).ctx.heap i).funcs = [] := by
        decide +kernel
      rw [List.findSome?_eq_none_iff.2]
      · rfl
      · intro i hi
        unfold funcIn
        rw [this i hi]
        rfl
    bodies := fun f b h => nomatch h
    jobs := by decide +kernel
    noAlias := by decide +kernel
    msgs := ⟨rfl, fun _ => rfl⟩
    texts := fun _ _ h => nomatch h
    absent := fun _ h => nomatch h
    files := by
      intro p r h
      simp only [fnLibWorld] at h
      split at h
      · next e =>
        cases h
        subst e
        exact ⟨lib, fnLibText, fun _ => rfl, parse_program (fn_program [] fnLib lib)⟩
      · split at h
        · next e =>
          cases h
          subst e
          exact fun _ => rfl
        · cases h
    res := demo_resources _
    pids := fun _ => rfl
    inj := fun i j h => by simpa [fnLibWorld, fnWorld] using h
    dirs := fun _ _ _ => rfl
    lines := by
      intro l hl i hi
      rw [List.mem_singleton.1 hl] at hi
      simp only [fnReads, FnLine.items, List.mem_cons, List.not_mem_nil, or_false] at hi
      rcases hi with rfl | rfl | rfl <;> intro c hc t ht <;> rw [List.mem_singleton.1 hc] at ht <;>
        simp only [MiniChain.steps, List.map_cons, List.map_nil, List.mem_cons, List.not_mem_nil, or_false] at ht
      · subst ht
        exact ⟨by decide, by decide, by
          intro a ha
          rw [List.mem_singleton.1 ha]
          exact ⟨by decide, by decide, trivial⟩⟩
      · rcases ht with rfl | rfl
        · intro e he
          rw [List.mem_singleton.1 he]
          exact cmd _ ⟨by decide, by simpa using word⟩
        · exact ⟨by decide, by decide, by simp⟩
      · subst ht
        intro e he
        rw [List.mem_singleton.1 he]
        exact cmd _ ⟨by decide, by simp⟩ }

/-- The hypotheses are met; the line leads back to the prompt, and the argument is still the last one. -/
example : ∃ s', Visits (demoWorld fnLibFiles) (2 + 1) (atPrompt [] fnLibReports fnLibFiles) [.line fnReads.text] s' ∧
    valueOf s' (cs!"1") = some (cs!"b") ∧ s'.waits = [] := by
  obtain ⟨τ, hτ, h1, h2, h3⟩ : ∃ τ, fnLibWorld.session 2 (.of (atPrompt [] fnLibReports fnLibFiles) fun _ => none) [fnReads] =
        some τ ∧ (atPrompt [] fnLibReports fnLibFiles).waits = τ.reported ++ [] ∧
      seen τ.scopes (cs!"1") = some (cs!"b") ∧ τ.ended = none := by
    have : ((fnLibWorld.session 2 (.of (atPrompt [] fnLibReports fnLibFiles) fun _ => none) [fnReads]).any fun τ =>
      decide ((atPrompt [] fnLibReports fnLibFiles).waits = τ.reported ++ [] ∧ seen τ.scopes (cs!"1") = some (cs!"b") ∧
        τ.ended = none)) = true := by decide +kernel
    obtain ⟨τ, h1, h2⟩ := (Option.any_eq_true _ _).1 this
    exact ⟨τ, h1, of_decide_eq_true h2⟩
  obtain ⟨s', a1, -, a2, -, -, -, -, -, -, -, a5, -⟩ := C164_session _ _ _ _ _ fnReads_ok _ (.texts _) 2 τ hτ [] h1 (by simp)
  exact ⟨s', (a1 h3).1, (a2 _ (unqualified_iff.2 rfl)).trans h2, a5⟩

/-! An example with `eval` and `return`. -/

/-- The lines ` todo='again a' ; again ( ) { return 7 ; eval 'make $1' } ; eval $todo a && return 3` and ` eval '}' ; make b`. -/
def Spec.fnEvals : List FnLine :=
  [{ first := .chain { first := .assign (cs!"todo") true (cs!"again a") }
     rest := [
      .define (cs!"again") { first := .return 7 } [{ first := .eval (.quoted (cs!"make $1")) }],
      .chain { first := .eval (.var (cs!"todo")) [.plain (cs!"a")], rest := [(.and, .return 3)] }] },
   { first := .chain { first := .eval (.quoted (cs!"}")) }
     rest := [.chain { first := .run ⟨cs!"make", [.plain (cs!"b")]⟩ [] }] }]

example : fnEvals.map FnLine.text =
    [cs!" todo='again a' ; again ( ) { return 7 ; eval 'make $1' } ; eval $todo a && return 3", cs!" eval '}' ; make b"] := by
  decide +kernel

/-- What the texts mean; the last one is not a program. -/
def Spec.fnTextWorld : FnWorld :=
  { fnWorld with
    means := fun t =>
      if t = cs!"again a" then some (some [{ first := .run ⟨cs!"again", [.plain (cs!"a")]⟩ [] }])
      else if t = cs!"make $1" then some (some [{ first := .run ⟨cs!"make", [.var (cs!"1")]⟩ [] }])
      else if t = cs!"}" then some none
      else none }

/-- `return` does not leave the function; the last text is refused, so that the rest of the line is not run. -/
example : (fnTextWorld.session 3 fnStart fnEvals).map (fun τ => (τ.ran, τ.recorded)) =
      some ([⟨cs!"/", [], [[cs!"make", cs!"a"]], [], [], [false]⟩], 3) ∧
    (fnTextWorld.session 2 fnStart fnEvals).isNone := by decide

/-- What the operating system reports in this example. -/
def Spec.fnTextReports : List WRes := ((fnTextWorld.session 3 fnStart fnEvals).map (·.reported)).getD []

theorem fnEvals_ok : FnOk (demoWorld []) fnTextWorld (fun _ => none) (atPrompt [] fnTextReports) fnEvals := by
  have hwr : ∀ x, Writable (atPrompt [] fnTextReports).ctx x := by
    intro x i hi b hb
    have : ∀ i ∈ (atPrompt [] fnTextReports).ctx.stack,
        ∀ p ∈ ((atPrompt [] fnTextReports).ctx.heap i).vars, p.2.readonly = false := by decide +kernel
    exact this i hi _ (lookup_mem hb)
  have hpath : pathOf (atPrompt [] fnTextReports) = some (cs!"/bin") := by decide +kernel
  have cmd : ∀ e : MiniCmd, (e.name ∈ [cs!"make", cs!"again"] ∧ ∀ a ∈ e.args, a.Ok) →
      FnCmdOk (demoWorld []) fnTextWorld (atPrompt [] fnTextReports) e := by
    rintro ⟨x, as⟩ ⟨hx, ha⟩
    have : PlainWord x ∧ x ∉ builtins ∧ (atPrompt [] fnTextReports).aliases.get x = none ∧
        '\x00' ∉ x ∧ hasSub (cs!"::") x = false ∧ endsWith (cs!"nope") (cs!"/bin/" ++ x) = false := by
      clear ha
      replace hx : x ∈ [cs!"make", cs!"again"] := hx
      revert x
      decide +kernel
    obtain ⟨h1, h2, h3, h4, h5, h6⟩ := this
    refine ⟨h1, h2, h3, h4, unqualified_iff.2 h5, ha, fun p hp => ?_⟩
    simp only [fnTextWorld, fnWorld] at hp
    split at hp
    · cases hp
      exact demo_runnable hpath h6 h4
    · cases hp
  have word : (MiniWord.var (cs!"1")).Ok := ⟨by decide, by decide, unqualified_iff.2 rfl⟩
  have pword : ∀ x, Typed.Ok (.plain x) → '\x00' ∉ x → (MiniWord.plain x).Ok := fun x h1 h2 => ⟨h1, h2, trivial⟩
  have qword : ∀ x, Typed.Ok (.single x) → '\x00' ∉ Typed.text (.single x) → (MiniWord.quoted x).Ok :=
    fun x h1 h2 => ⟨h1, h2, trivial⟩
  have one : ∀ (x : Str) (a : MiniWord), x ∈ [cs!"make", cs!"again"] → a.Ok →
      FnChainsOk (demoWorld []) fnTextWorld (atPrompt [] fnTextReports) [{ first := .run ⟨x, [a]⟩ [] }] := by
    intro x a hx ha c hc t ht
    rw [List.mem_singleton.1 hc] at ht
    rw [List.mem_singleton.1 ht]
    intro e he
    rw [List.mem_singleton.1 he]
    exact cmd _ ⟨hx, by simpa using ha⟩
  exact {
    prompt := atPrompt_ok (by decide +kernel)
    ps1 := by decide +kernel
    values := by
      intro i hi x b _ hb
      have : ∀ i ∈ (atPrompt [] fnTextReports).ctx.stack,
          ∀ p ∈ ((atPrompt [] fnTextReports).ctx.heap i).vars, CleanValue p.2.value := by decide +kernel
      exact this i hi _ (lookup_mem hb)
    params := fun i => hwr _
    defined := by
      intro f hf
      unfold Defined
      rw [CtxMgr.getFunction_unqualified _ hf]
      have : ∀ i ∈ (atPrompt [] fnTextReports).ctx.stack,
          ((atPrompt [] fnTextReports).ctx.heap i).funcs = [] := by
        decide +kernel
      rw [List.findSome?_eq_none_iff.2]
      · rfl
      · intro i hi
        unfold funcIn
        rw [this i hi]
        rfl
    bodies := fun f b h => nomatch h
    jobs := by decide +kernel
    noAlias := by decide +kernel
    msgs := ⟨rfl, fun _ => rfl⟩
    texts := by
      intro t r h
      simp only [fnTextWorld] at h
      split at h
      · next e =>
        cases h
        subst e
        exact ⟨one _ _ (by decide) (pword _ (by decide) (by decide)), rfl⟩
      · split at h
        · next e =>
          cases h
          subst e
          exact ⟨one _ _ (by decide) word, rfl⟩
        · split at h
          · next e =>
            cases h
            subst e
            exact show parse _ = none from rfl
          · cases h
    files := fun _ _ h => nomatch h
    absent := fun _ h => nomatch h
    res := demo_resources _
    pids := fun _ => rfl
    inj := fun i j h => by simpa [fnTextWorld, fnWorld] using h
    dirs := fun _ _ _ => rfl
    lines := by
      intro l hl i hi
      simp only [fnEvals, List.mem_cons, List.not_mem_nil, or_false] at hl
      rcases hl with rfl | rfl <;> simp only [FnLine.items, List.mem_cons, List.not_mem_nil, or_false] at hi
      · rcases hi with rfl | rfl | rfl
        · intro c hc t ht
          rw [List.mem_singleton.1 hc] at ht
          rw [List.mem_singleton.1 ht]
          exact ⟨by decide, ⟨by decide, by decide, unqualified_iff.2 rfl, rfl⟩, by decide, by decide, by decide, by decide,
            by decide, hwr _⟩
        · refine ⟨?_, by decide, unqualified_iff.2 rfl⟩
          intro c hc t ht
          simp only [List.mem_cons, List.not_mem_nil, or_false] at hc
          rcases hc with rfl | rfl <;> rw [List.mem_singleton.1 ht]
          · exact show Code 7 by unfold Code; omega
          · intro b hb
            rw [List.mem_singleton.1 hb]
            exact qword _ (by decide) (by decide)
        · intro c hc t ht
          rw [List.mem_singleton.1 hc] at ht
          simp only [MiniChain.steps, List.map_cons, List.map_nil, List.mem_cons, List.not_mem_nil, or_false] at ht
          rcases ht with rfl | rfl
          · intro b hb
            simp only [List.mem_cons, List.not_mem_nil, or_false] at hb
            rcases hb with rfl | rfl
            · exact ⟨by decide, by decide, unqualified_iff.2 rfl⟩
            · exact pword _ (by decide) (by decide)
          · exact show Code 3 by unfold Code; omega
      · rcases hi with rfl | rfl
        · intro c hc t ht
          rw [List.mem_singleton.1 hc] at ht
          rw [List.mem_singleton.1 ht]
          intro b hb
          rw [List.mem_singleton.1 hb]
          exact qword _ (by decide) (by decide)
        · exact one _ _ (by decide) (pword _ (by decide) (by decide)) }

/-- The hypotheses are met. -/
example : ∃ s', Visits (demoWorld []) (3 + 1) (atPrompt [] fnTextReports) (fnEvals.map fun l => .line l.text) s' ∧
    s'.exitStatus = 3 ∧ s'.waits = [] := by
  obtain ⟨τ, hτ, h1, h2, h3⟩ : ∃ τ, fnTextWorld.session 3 (.of (atPrompt [] fnTextReports) fun _ => none) fnEvals =
        some τ ∧ (atPrompt [] fnTextReports).waits = τ.reported ++ [] ∧ τ.recorded = 3 ∧ τ.ended = none := by
    have : ((fnTextWorld.session 3 (.of (atPrompt [] fnTextReports) fun _ => none) fnEvals).any fun τ =>
      decide ((atPrompt [] fnTextReports).waits = τ.reported ++ [] ∧ τ.recorded = 3 ∧ τ.ended = none)) = true := by
      decide +kernel
    obtain ⟨τ, h1, h2⟩ := (Option.any_eq_true _ _).1 this
    exact ⟨τ, h1, of_decide_eq_true h2⟩
  obtain ⟨s', a1, -, -, -, -, a4, -, -, -, -, a5, -⟩ := C164_session _ _ _ _ _ fnEvals_ok _ (.texts _) 3 τ hτ [] h1 (by simp)
  exact ⟨s', by simpa [Function.comp_def] using (a1 h3).1, a4.trans h2, a5⟩

/-! An example with assignments and redirections. -/

/-- The line ` go ( ) { MODE=fast make < list $1 | mail >> log b } ; go a`. -/
def Spec.fnWires : FnLine where
  first := .define (cs!"go") { first := .full (⟨⟨cs!"make", [.var (cs!"1")]⟩, [(cs!"MODE", cs!"fast")], [(.input, cs!"list")]⟩)
                                          [⟨⟨cs!"mail", [.plain (cs!"b")]⟩, [], [(.append, cs!"log")]⟩] } []
  rest := [.chain { first := .run ⟨cs!"go", [.plain (cs!"a")]⟩ [] }]

example : fnWires.text = cs!" go ( ) { MODE=fast make < list $1 | mail >> log b } ; go a" := by decide +kernel

example : (fnWorld.session 1 fnStart [fnWires]).map (·.ran) =
    some [⟨cs!"/", [], [[cs!"make", cs!"a"], [cs!"mail", cs!"b"]], [[(cs!"MODE", cs!"fast")], []],
      [[(.input, cs!"list")], [(.append, cs!"log")]], [false, false]⟩] := by decide

/-- What the operating system reports in this example. -/
def Spec.fnWireReports : List WRes := ((fnWorld.session 1 fnStart [fnWires]).map (·.reported)).getD []

theorem fnWires_ok : FnOk (demoWorld []) fnWorld (fun _ => none) (atPrompt [] fnWireReports) [fnWires] := by
  have hwr : ∀ x, Writable (atPrompt [] fnWireReports).ctx x := by
    intro x i hi b hb
    have : ∀ i ∈ (atPrompt [] fnWireReports).ctx.stack,
        ∀ p ∈ ((atPrompt [] fnWireReports).ctx.heap i).vars, p.2.readonly = false := by decide +kernel
    exact this i hi _ (lookup_mem hb)
  have hpath : pathOf (atPrompt [] fnWireReports) = some (cs!"/bin") := by decide +kernel
  have cmd : ∀ e : MiniCmd, (e.name ∈ [cs!"make", cs!"mail", cs!"go"] ∧ ∀ a ∈ e.args, a.Ok) →
      FnCmdOk (demoWorld []) fnWorld (atPrompt [] fnWireReports) e := by
    rintro ⟨x, as⟩ ⟨hx, ha⟩
    have : PlainWord x ∧ x ∉ builtins ∧ (atPrompt [] fnWireReports).aliases.get x = none ∧
        '\x00' ∉ x ∧ hasSub (cs!"::") x = false ∧ endsWith (cs!"nope") (cs!"/bin/" ++ x) = false := by
      clear ha
      replace hx : x ∈ [cs!"make", cs!"mail", cs!"go"] := hx
      revert x
      decide +kernel
    obtain ⟨h1, h2, h3, h4, h5, h6⟩ := this
    refine ⟨h1, h2, h3, h4, unqualified_iff.2 h5, ha, fun p hp => ?_⟩
    simp only [fnWorld] at hp
    split at hp
    · cases hp
      exact demo_runnable hpath h6 h4
    · cases hp
  have word : (MiniWord.var (cs!"1")).Ok := ⟨by decide, by decide, unqualified_iff.2 rfl⟩
  have pword : ∀ x, Typed.Ok (.plain x) → '\x00' ∉ x → (MiniWord.plain x).Ok := fun x h1 h2 => ⟨h1, h2, trivial⟩
  exact {
    prompt := atPrompt_ok (by decide +kernel)
    ps1 := by decide +kernel
    values := by
      intro i hi x b _ hb
      have : ∀ i ∈ (atPrompt [] fnWireReports).ctx.stack,
          ∀ p ∈ ((atPrompt [] fnWireReports).ctx.heap i).vars, CleanValue p.2.value := by decide +kernel
      exact this i hi _ (lookup_mem hb)
    params := fun i => hwr _
    defined := by
      intro f hf
      unfold Defined
      rw [CtxMgr.getFunction_unqualified _ hf]
      have : ∀ i ∈ (atPrompt [] fnWireReports).ctx.stack,
          ((atPrompt [] fnWireReports).ctx.heap i).funcs = [] := by
        decide +kernel
      rw [List.findSome?_eq_none_iff.2]
      · rfl
      · intro i hi
        unfold funcIn
        rw [this i hi]
        rfl
    bodies := fun f b h => nomatch h
    jobs := by decide +kernel
    noAlias := by decide +kernel
    msgs := ⟨rfl, fun _ => rfl⟩
    texts := fun _ _ h => nomatch h
    files := fun _ _ h => nomatch h
    absent := fun _ h => nomatch h
    res := demo_resources _
    pids := fun _ => rfl
    inj := fun i j h => by simpa [fnWorld] using h
    dirs := fun _ _ _ => rfl
    lines := by
      intro l hl i hi
      rw [List.mem_singleton.1 hl] at hi
      simp only [fnWires, FnLine.items, List.mem_cons, List.not_mem_nil, or_false] at hi
      rcases hi with rfl | rfl
      · refine ⟨?_, by decide, unqualified_iff.2 rfl⟩
        intro c hc t ht
        rw [List.mem_singleton.1 hc] at ht
        rw [List.mem_singleton.1 ht]
        intro e he
        simp only [List.mem_cons, List.not_mem_nil, or_false] at he
        rcases he with rfl | rfl
        · exact ⟨cmd _ ⟨by decide, by simpa using word⟩, by decide,
            by intro r hr; rw [List.mem_singleton.1 hr]; exact ⟨by decide, by decide, fun _ _ => rfl⟩, .inr (by simp)⟩
        · exact ⟨cmd _ ⟨by decide, by simpa using pword _ (by decide) (by decide)⟩, nofun,
            by intro r hr; rw [List.mem_singleton.1 hr]; exact ⟨by decide, by decide, fun _ _ => rfl⟩, .inr (by simp)⟩
      · intro c hc t ht
        rw [List.mem_singleton.1 hc] at ht
        rw [List.mem_singleton.1 ht]
        intro e he
        rw [List.mem_singleton.1 he]
        exact cmd _ ⟨by decide, by simpa using pword _ (by decide) (by decide)⟩ }

/-- The hypotheses are met: two programs are run, the first one with the variable, each with its file. -/
example : ∃ s' i1 i2, Visits (demoWorld []) (1 + 1) (atPrompt [] fnWireReports) [.line fnWires.text] s' ∧
    execs s'.trace = execs (atPrompt [] fnWireReports).trace ++ [i1, i2] ∧ i1.argv = [cs!"make", cs!"a"] ∧
    i1.env.get (cs!"MODE") = some (cs!"fast") ∧ chanOf i1 0 = some (.file .input (cs!"list")) ∧
    chanOf i2 1 = some (.file .append (cs!"log")) ∧ ∃ p, chanOf i1 1 = some (.pipeW p) ∧ chanOf i2 0 = some (.pipeR p) := by
  obtain ⟨τ, hτ, h1, h2, h3⟩ : ∃ τ, fnWorld.session 1 (.of (atPrompt [] fnWireReports) fun _ => none) [fnWires] =
        some τ ∧ (atPrompt [] fnWireReports).waits = τ.reported ++ [] ∧
      τ.ran = [⟨cs!"/", [], [[cs!"make", cs!"a"], [cs!"mail", cs!"b"]], [[(cs!"MODE", cs!"fast")], []],
        [[(.input, cs!"list")], [(.append, cs!"log")]], [false, false]⟩] ∧ τ.ended = none := by
    have : ((fnWorld.session 1 (.of (atPrompt [] fnWireReports) fun _ => none) [fnWires]).any fun τ =>
      decide ((atPrompt [] fnWireReports).waits = τ.reported ++ [] ∧
        τ.ran = [⟨cs!"/", [], [[cs!"make", cs!"a"], [cs!"mail", cs!"b"]], [[(cs!"MODE", cs!"fast")], []],
          [[(.input, cs!"list")], [(.append, cs!"log")]], [false, false]⟩] ∧ τ.ended = none)) = true := by
      decide +kernel
    obtain ⟨τ, h1, h2⟩ := (Option.any_eq_true _ _).1 this
    exact ⟨τ, h1, of_decide_eq_true h2⟩
  obtain ⟨s', a1, -, -, -, -, -, ⟨groups, g1, g2⟩, -⟩ := C164_session _ _ _ _ _ fnWires_ok _ (.texts _) 1 τ hτ [] h1 (by simp)
  have hnone : ∀ {f s rs gs}, FnRan f s rs gs → rs = [] → gs = [] := by
    intro f s rs gs h e
    cases h with
    | nil => rfl
    | snoc => simp at e
  rw [h2] at g1
  generalize hr : [(⟨cs!"/", [], [[cs!"make", cs!"a"], [cs!"mail", cs!"b"]], [[(cs!"MODE", cs!"fast")], []],
        [[(.input, cs!"list")], [(.append, cs!"log")]], [false, false]⟩ : FnRun)] = rs at g1
  cases g1 with
  | nil => cases hr
  | @snoc rs gs r g k1 k2 =>
    obtain ⟨rfl, rfl⟩ : rs = [] ∧ r = _ := by
      have := List.append_inj' (s₁ := []) hr rfl
      exact ⟨this.1.symm, (List.cons.inj this.2).1.symm⟩
    cases hnone k1 rfl
    · obtain ⟨e1, -, ⟨pipe, -, e2⟩, e3, -⟩ := k2
      have hl := congrArg List.length e1
      match g, hl with
      | [i1, i2], _ =>
        refine ⟨s', i1, i2, (a1 h3).1, by simpa [existing] using g2, (List.cons.inj e1).1, e3 0 i1 rfl _, e2 0 i1 rfl 0, e2 1 i2 rfl 1,
          pipe 0, e2 0 i1 rfl 1, e2 1 i2 rfl 0⟩

end Rsh
