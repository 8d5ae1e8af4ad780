import Verif.Spec.Mini
import Verif.Proofs.Reference
import Verif.Props.Words
import Verif.Props.Process
import Verif.Props.Functions
import Verif.Proofs.Calm

/-!
# The small language
-/

namespace Rsh

open Spec

theorem isFunction_isSome (m : CtxMgr) (f : Str) : m.isFunction f = (m.getFunction f).isSome := by
  rcases h : m.getFunction f with _ | b
  · cases h1 : m.isFunction f with
    | false => rfl
    | true =>
      obtain ⟨b, hb⟩ := Calm.isFunction_get h1
      rw [h] at hb
      cases hb
  · rw [isFunction_of_get h]
    rfl

theorem exits_noEintr (pid : Nat → Nat) (code : Nat → Int) (k m : Nat) : .eintr ∉ exits pid code k m := by
  simp [exits]

/-! ## Words -/

/-- What the reference takes for the values of variables has no quotation marks at its beginning. -/
def CleanVars (vars : Str → Option Str) : Prop := ∀ x v, Unqualified x → vars x = some v → CleanValue v

theorem arrives_clean {v : Str} (h : CleanValue v) : Arrives v v := by
  unfold Arrives
  rw [if_neg (h.1 _ (by simp [quotes])), if_neg (h.1 _ (by simp [quotes]))]

theorem afterDollars_sub : ∀ {t v : Str}, afterDollars t = some v → ∀ c ∈ v, c ∈ t
  | [], v, h, c, hc => by cases h; exact hc
  | [d], v, h, c, hc => by
    unfold afterDollars at h
    split at h
    · cases h
    · cases h; exact hc
  | d :: e :: t, v, h, c, hc => by
    unfold afterDollars at h
    split at h
    · rename_i hd
      obtain ⟨v', h', rfl⟩ := Option.map_eq_some_iff.1 h
      rcases List.mem_cons.1 hc with rfl | hc
      · exact hd ▸ List.mem_cons_self
      · exact List.mem_cons_of_mem _ (List.mem_cons_of_mem _ (afterDollars_sub h' c hc))
    · obtain ⟨v', h', rfl⟩ := Option.map_eq_some_iff.1 h
      rcases List.mem_cons.1 hc with rfl | hc
      · exact List.mem_cons_self
      · exact List.mem_cons_of_mem _ (afterDollars_sub h' c hc)

theorem noSubst_quoted {t : Str} (h : ∀ a b, t ≠ a ++ '$' :: '(' :: b) (a b : Str) :
    '"' :: (t ++ ['"']) ≠ a ++ '$' :: '(' :: b := by
  intro e
  cases a with
  | nil => cases e
  | cons c a =>
    obtain ⟨-, e⟩ := List.cons.inj e
    rcases List.eq_nil_or_concat b with rfl | ⟨b, d, rfl⟩
    · have := congrArg List.getLast? e
      simp at this
    · refine h a b ?_
      have e' : t ++ ['"'] = (a ++ '$' :: '(' :: b) ++ [d] := by simpa using e
      exact (List.append_inj' e' rfl).1

theorem MiniWord.means {vars get : Str → Option Str} (hc : CleanVars vars) (hv : ∀ x, Unqualified x → get x = vars x)
    {a : MiniWord} (ha : a.Ok) : a.typed.Means get (a.value vars) := by
  obtain ⟨h1, h2, h3⟩ := ha
  unfold Typed.Means
  cases a with
  | plain w => (have h := arrives_plain (get := get) (x := w) h1 []; rw [List.append_nil] at h; exact h)
  | quoted t =>
    show Arrives ('\'' :: (t ++ ['\''])) t
    simp [Arrives]
  | double t =>
    show Arrives ('"' :: (t ++ ['"'])) ((afterDollars t).getD [])
    obtain ⟨k1, k2, k3⟩ := h3
    obtain ⟨v, hv⟩ := Option.ne_none_iff_exists'.1 k3
    rw [hv]
    unfold Arrives
    rw [if_neg (by simp), if_pos (by simp)]
    exact ⟨by simpa using hv, by simp [k1], noSubst_quoted k2⟩
  | mixed w =>
    show Arrives (expansion get w) w
    obtain ⟨⟨c, hc, hw, hs⟩, -⟩ := h1
    cases w with
    | nil => cases hc
    | cons d w =>
      cases hc
      have e : expansion get (c :: w) = c :: w := by
        unfold expansion
        split
        · rename_i e
          exact absurd (by cases e; simp [special]) hs
        · rfl
      rw [e]
      unfold Arrives
      rw [if_neg (by rintro ⟨⟩; exact hs (by simp [special])), if_neg (by rintro ⟨⟩; exact hs (by simp [special]))]
  | var x =>
    show Arrives ((get x).getD ('$' :: x)) ((vars x).getD ('$' :: x))
    rw [hv x h3]
    rcases e : vars x with _ | v
    · simp [Arrives]
    · exact arrives_clean (hc x v h3 e)

theorem MiniWord.noNul {vars : Str → Option Str} (hc : CleanVars vars) {a : MiniWord} (ha : a.Ok) :
    '\x00' ∉ a.value vars := by
  obtain ⟨h1, h2, h3⟩ := ha
  cases a with
  | plain w => exact h2
  | quoted t =>
    simp only [MiniWord.typed, Typed.text, List.mem_cons, List.mem_append, not_or] at h2
    exact h2.2.1
  | double t =>
    obtain ⟨v, hv⟩ := Option.ne_none_iff_exists'.1 h3.2.2
    simp only [MiniWord.typed, Typed.text, List.mem_cons, List.mem_append, not_or] at h2
    show '\x00' ∉ (afterDollars t).getD []
    rw [hv]
    exact fun h => h2.2.1 (afterDollars_sub hv _ h)
  | mixed w => exact h2
  | var x =>
    show '\x00' ∉ (vars x).getD ('$' :: x)
    rcases e : vars x with _ | v
    · exact h2
    · exact (hc x v h3 e).2

/-- The command with the values of its arguments. -/
def Spec.MiniCmd.ext (vars : Str → Option Str) (c : MiniCmd) : Ext :=
  { name := c.name, args := c.args.map fun a => (a.typed, a.value vars) }

theorem MiniCmd.ext_argv (vars : Str → Option Str) (c : MiniCmd) : (c.ext vars).argv = c.argv vars := by
  simp [MiniCmd.ext, Ext.argv, Ext.words, MiniCmd.argv, Function.comp_def]

theorem MiniCmd.ext_tcmd (vars : Str → Option Str) (c : MiniCmd) : (c.ext vars).tcmd = c.typed := by
  simp [MiniCmd.ext, Ext.tcmd, MiniCmd.typed, Function.comp_def]

/-! ## The simulation -/

/-- What no step changes. -/
def MiniSame (s s' : Sh) : Prop :=
  s' = { s with ctx := s'.ctx, cwd := s'.cwd, jc := s'.jc, masked := s'.masked, gotSigchld := s'.gotSigchld,
                waits := s'.waits, trace := s'.trace, nextPipe := s'.nextPipe, exitStatus := s'.exitStatus }

theorem MiniSame.trans {a b c : Sh} (h1 : MiniSame a b) (h2 : MiniSame b c) : MiniSame a c := by
  unfold MiniSame at *
  rw [h2, h1]

theorem Ran.mini {a b : Sh} (h : Ran a b) : MiniSame a b := by
  unfold Ran at h
  unfold MiniSame
  rw [h]

/-- The shell `s`, once `s0`, is in the state `σ` of the reference; `all` is what the operating system has reported and will report. -/
structure Sim (u : MiniWorld) (file : Str → Str) (all : List WRes) (s0 : Sh) (σ : MiniState) (s : Sh) : Prop where
  same : MiniSame s0 s
  vars : ∀ x, Unqualified x → valueOf s x = σ.vars x
  clean : CleanVars σ.vars
  cwd : s.cwd = σ.cwd
  status : s.exitStatus = σ.recorded
  started : forks s.trace = σ.started
  table : s.jc.table = []
  path : pathOf s = pathOf s0
  funcs : ∀ f, s.ctx.isFunction f = s0.ctx.isFunction f
  stack : s.ctx.stack = s0.ctx.stack
  writable : ∀ x, Unqualified x → (∀ b, s0.ctx.getVar x = some b → b.readonly = false) →
    ∀ b, s.ctx.getVar x = some b → b.readonly = false
  ps1 : valueOf s (cs!"PS1") ≠ none
  ran : ∃ groups, MiniRan file s0 σ.ran groups ∧ execs s.trace = execs s0.trace ++ groups.flatten
  waits : σ.reported ++ s.waits = all

/-- The outside world is as the reference assumes. -/
structure MiniSetting (w : World) (u : MiniWorld) (s0 : Sh) : Prop where
  res : Resources w
  pids : ∀ tr, w.fork tr = some (u.pid (forks tr))
  inj : ∀ i j, u.pid i = u.pid j → i = j
  dirs : ∀ tr c d, w.chdir tr c d = u.dirs c d
  fds : s0.fds = stdTable
  held : s0.held = []
  own : s0.ownGroup = false
  stack : s0.ctx.stack ≠ []
  noAlias : s0.aliases.get [] = none ∧ s0.aliases.get (cs!"cd") = none

/-- The reports of the reference are the first ones. -/
def Begins (all : List WRes) (σ : MiniState) : Prop := ∃ more, all = σ.reported ++ more ∧ .eintr ∉ more

/-- The reference goes on. -/
def MiniLater (σ σ' : MiniState) : Prop := ∃ more, σ'.reported = σ.reported ++ more ∧ .eintr ∉ more

theorem MiniLater.refl (σ : MiniState) : MiniLater σ σ := ⟨[], by simp, by simp⟩

theorem MiniLater.trans {a b c : MiniState} (h1 : MiniLater a b) (h2 : MiniLater b c) : MiniLater a c := by
  obtain ⟨m1, e1, n1⟩ := h1
  obtain ⟨m2, e2, n2⟩ := h2
  exact ⟨m1 ++ m2, by rw [e2, e1, List.append_assoc], by rw [List.mem_append]; exact fun h => h.elim n1 n2⟩

theorem Begins.before {all : List WRes} {a b : MiniState} (h : Begins all b) (h1 : MiniLater a b) : Begins all a := by
  obtain ⟨m1, e1, n1⟩ := h
  obtain ⟨m2, e2, n2⟩ := h1
  exact ⟨m2 ++ m1, by rw [e1, e2, List.append_assoc], by rw [List.mem_append]; exact fun h => h.elim n2 n1⟩

theorem later_step (u : MiniWorld) (σ : MiniState) (t : MiniStep) : MiniLater σ (u.step σ t) := by
  unfold MiniWorld.step
  split
  · exact MiniLater.refl σ
  · cases t with
    | assign x q v => exact MiniLater.refl σ
    | cd d =>
      simp only
      split <;> exact MiniLater.refl σ
    | run c cs => exact ⟨_, rfl, exits_noEintr _ _ _ _⟩
    | «export» x q v => exact MiniLater.refl σ
    | unset x g => exact MiniLater.refl σ
    | exit c => exact MiniLater.refl σ
    | source d p as => exact MiniLater.refl σ
    | eval a as => exact MiniLater.refl σ
    | full c cs => exact MiniLater.refl σ
    | «return» c => exact MiniLater.refl σ
    | pwd => exact MiniLater.refl σ
    | other b => exact MiniLater.refl σ

theorem later_link (u : MiniWorld) (σ : MiniState) (l : CondExec × MiniStep) : MiniLater σ (u.link σ l) := by
  unfold MiniWorld.link
  split <;> split <;> first | exact later_step u σ l.2 | exact MiniLater.refl σ

theorem later_foldl {α : Type} {f : MiniState → α → MiniState} (hf : ∀ σ a, MiniLater σ (f σ a)) (l : List α) :
    ∀ σ, MiniLater σ (l.foldl f σ) := by
  induction l with
  | nil => exact MiniLater.refl
  | cons a l ih => intro σ; exact (hf σ a).trans (ih (f σ a))

theorem later_chain (u : MiniWorld) (σ : MiniState) (c : MiniChain) : MiniLater σ (u.chain σ c) :=
  (later_step u σ c.first).trans (later_foldl (later_link u) _ _)

theorem later_line (u : MiniWorld) (σ : MiniState) (l : MiniLine) : MiniLater σ (u.line σ l) :=
  (show MiniLater σ { σ with stopped := false } from MiniLater.refl σ).trans (later_foldl (later_chain u) _ _)

/-- What a step, or several, end with. -/
def EndsAs (σ : MiniState) (o : Out Int) : Prop := if σ.stopped then ∃ e, o = .err e else o = .ok σ.status

theorem Sim.masked {u : MiniWorld} {file : Str → Str} {all : List WRes} {s0 : Sh} {σ : MiniState} {s : Sh}
    (h : Sim u file all s0 σ s) : Sim u file all s0 σ { s with masked := true } := by
  obtain ⟨h1, h2, h3, h4, h5, h6, h7, h8, h9, h10, h11, h12, h13, h14⟩ := h
  exact ⟨h1.trans rfl, h2, h3, h4, h5, h6, h7, h8, h9, h10, h11, h12, h13, h14⟩

theorem Sim.restated {u : MiniWorld} {file : Str → Str} {all : List WRes} {s0 : Sh} {σ σ' : MiniState} {s : Sh}
    (h : Sim u file all s0 σ s) (hv : σ'.vars = σ.vars) (hc : σ'.cwd = σ.cwd) (hr : σ'.recorded = σ.recorded)
    (hst : σ'.started = σ.started) (hran : σ'.ran = σ.ran) (hrep : σ'.reported = σ.reported) :
    Sim u file all s0 σ' s := by
  obtain ⟨h1, h2, h3, h4, h5, h6, h7, h8, h9, h10, h11, h12, h13, h14⟩ := h
  exact ⟨h1, by rw [hv]; exact h2, by rw [hv]; exact h3, by rw [hc]; exact h4, by rw [hr]; exact h5, by rw [hst]; exact h6,
    h7, h8, h9, h10, h11, h12, by rw [hran]; exact h13, by rw [hrep]; exact h14⟩

theorem evalPipeline_assign (w : World) (rec : List AndOr → M Int) {s : Sh} {x : Str} {t : Typed} {a : Str}
    (hal : s.aliases.get [] = none) (he : expandAssign s.ctx (x ++ '=' :: t.text) = some a) {m : CtxMgr}
    (hm : s.ctx.addVar a = some m) :
    evalPipeline w rec (TPipe.pipeline { first := assignment x t }) s = (.ok 0, { s with masked := true, ctx := m }) := by
  have hcmd : (assignment x t).command = ⟨some ⟨[], [x ++ '=' :: t.text]⟩, [], none⟩ := rfl
  show evalPipeline w rec (.mk false [.simple (assignment x t).command] false) s = _
  rw [hcmd, evalPipeline_builtin w rec (c' := ⟨some ⟨[], [a]⟩, [], none⟩) false false (show ([] : Str) ∈ builtins by decide)]
  · have : bAssign ⟨some ⟨[], [a]⟩, [], none⟩ { s with masked := true } = (.ok (), { s with masked := true, ctx := m }) := by
      show addVarContext a _ = _
      unfold addVarContext
      rw [run_getS_bind, show ({ s with masked := true } : Sh).ctx.addVar a = some m from hm]
      rfl
    rw [show callBuiltin w rec ⟨some ⟨[], [a]⟩, [], none⟩ = bAssign ⟨some ⟨[], [a]⟩, [], none⟩ from rfl, run_bind_ok this]
    rfl
  · unfold expandCommand
    rw [run_bind_ok (aliasLookup_none (s := { s with masked := true }) hal)]
    unfold expandVars expandVarsIn
    rw [bind_assoc, run_getS_bind]
    simp [he]
    rfl

theorem evalPipeline_cd (w : World) (rec : List AndOr → M Int) {s : Sh} {t : Typed} {d : Str}
    (hal : s.aliases.get (cs!"cd") = none) (hm : t.Means (valueOf s) d) :
    evalPipeline w rec (TPipe.pipeline { first := { name := some (.plain (cs!"cd")), after := [.arg t] } }) s =
      match w.chdir s.trace s.cwd d with
      | none => (.err w.osMsg, { s with masked := true })
      | some d' => (.ok 0, { s with cwd := d', masked := false, trace := .chdir d :: s.trace }) := by
  show evalPipeline w rec (.mk false [.simple ⟨none, cs!"cd", some ⟨[], [t.text]⟩⟩] false) s = _
  rw [evalPipeline_builtin w rec (c' := ⟨none, cs!"cd", some ⟨[], [d]⟩⟩) false false (show cs!"cd" ∈ builtins by decide)]
  · rw [callBuiltin_cd _ _ rfl]
    have : bCd w ⟨none, cs!"cd", some ⟨[], [d]⟩⟩ { s with masked := true } =
        match w.chdir s.trace s.cwd d with
        | none => (.err w.osMsg, { s with masked := true })
        | some d' => (.ok (), { s with cwd := d', masked := false, trace := .chdir d :: s.trace }) := by
      unfold bCd
      rw [run_bind_ok (show interruptsOff { s with masked := true } = (.ok (), { s with masked := true }) from rfl),
        run_getS_bind]
      show (match w.chdir s.trace s.cwd d with
        | none => throwE w.osMsg
        | some d' => (do
          modS fun s => { s with cwd := d', trace := .chdir d :: s.trace }
          interruptsOn) : M Unit) { s with masked := true } = _
      cases w.chdir s.trace s.cwd d <;> rfl
    rw [run_bind, this]
    cases w.chdir s.trace s.cwd d <;> rfl
  · exact expandCommand_words w rec (c := ⟨none, cs!"cd", some ⟨[], [t.text]⟩⟩) (s := { s with masked := true })
      (builtin_plain (n := cs!"cd") (by decide) (by decide)) hal (by simp) (.cons hm .nil)

/-- What becomes of the contexts in a step. -/
def CtxAfter (m m' : CtxMgr) : MiniStep → Prop
  | .assign x _ v => ∃ t pre post, m.stack = pre ++ t :: post ∧ (∀ i ∈ pre, varIn m x i = none) ∧
      ((varIn m x t).isSome = true ∨ (pre = [] ∧ ∀ i ∈ m.stack, varIn m x i = none)) ∧
      m'.stack = m.stack ∧
      (∀ i y, varIn m' y i = if i = t ∧ y = x then some { value := v } else varIn m y i) ∧
      (∀ i f, funcIn m' f i = funcIn m f i) ∧ (∀ f, m'.getFunction f = m.getFunction f) ∧ (Good m → Good m')
  | _ => m' = m

/-- One step, and the contexts afterwards. -/
theorem mini_step_ctx {w : World} {u : MiniWorld} {file : Str → Str} {all : List WRes} {s0 : Sh} (S : MiniSetting w u s0)
    (rec : List AndOr → M Int) {σ : MiniState} {s : Sh} (h : Sim u file all s0 σ s) (hgo : σ.stopped = false)
    {t : MiniStep} (ht : t.Ok w file s0) (hb : Begins all (u.step σ t)) :
    ∃ o s', evalPipeline w rec t.typed.pipeline s = (o, s') ∧ EndsAs (u.step σ t) o ∧
      Sim u file all s0 (u.step σ t) s' ∧ CtxAfter s.ctx s'.ctx t ∧ (∀ e, o = .err e → e = w.osMsg) ∧
      ((∀ c cs, t ≠ .run c cs) → printed s'.trace = printed s.trace) := by
  have hsame := h.same
  unfold MiniSame at hsame
  have hal : s.aliases = s0.aliases := by rw [hsame]
  cases t with
  | assign x q v =>
    obtain ⟨p1, p2, p3, p4, p5, p6, p7, p8⟩ := ht
    have hstep : u.step σ (.assign x q v) = { σ with vars := fun y => if y = x then some v else σ.vars y, status := 0 } := by
      simp [MiniWorld.step, hgo]
    rw [hstep]
    have htext : (miniTyped q v).text = if q then '\'' :: (v ++ ['\'']) else v := by
      cases q <;> rfl
    have hx : '$' ∉ x := fun e => (p1.2.1 _ e).2 (by decide)
    have hd : expandAssign s.ctx (x ++ '=' :: (miniTyped q v).text) = some (x ++ '=' :: (miniTyped q v).text) := by
      unfold expandAssign
      rw [if_neg]
      rw [hasSub_single, htext]
      cases q <;> simp [hx, p6]
    have hun : Unquoted (miniTyped q v).text v := by
      rw [htext]
      cases q with
      | true => exact .inl ⟨'\'', by simp [quotes], rfl⟩
      | false =>
        refine .inr ⟨fun q hq t e => p7.1 q hq ?_, rfl⟩
        simp only [Bool.false_eq_true, if_false] at e
        rw [e]
        rfl
    have hlone : ¬ LoneQuote (miniTyped q v).text := by
      rintro ⟨c, hc, e⟩
      rw [htext] at e
      cases q with
      | true => simp at e
      | false =>
        simp only [Bool.false_eq_true, if_false] at e
        exact p7.1 c hc (by rw [e]; rfl)
    have heq : '=' ∉ (miniTyped q v).text := by
      rw [htext]
      cases q <;> simp [p5]
    obtain ⟨m, tgt, pre, post, a1, b1, b2, b3, a2, -, -, a3, b4, a4, a5, -, a6⟩ :=
      C29_assign s.ctx x _ v p2 heq hun hlone (by rw [h.stack]; exact S.stack) (h.writable x p2.2.2.1 p8)
    have hval : ∀ y, Unqualified y → (m.getVar y).map Var.value = if y = x then some v else valueOf s y := by
      intro y hy
      by_cases e : y = x
      · rw [if_pos e, e, a4]
        rfl
      · rw [if_neg e, a5 y hy e]
        rfl
    refine ⟨_, _, evalPipeline_assign w rec (by rw [hal]; exact S.noAlias.1) hd a1, by simp [EndsAs, hgo], ?_,
      ⟨tgt, pre, post, b1, b2, b3, a2, a3, b4, a6, (Shape.addVar a1).good⟩, nofun, fun _ => rfl⟩
    exact {
      same := h.same.trans rfl
      vars := fun y hy => by
        show (m.getVar y).map Var.value = _
        rw [hval y hy, h.vars y hy]
      clean := fun y z hy hz => by
        simp only at hz
        split at hz
        · cases hz
          exact p7
        · exact h.clean y z hy hz
      cwd := h.cwd
      status := h.status
      started := h.started
      table := h.table
      path := by
        rw [← h.path]
        unfold pathOf
        show (m.stack.getLast?.bind fun id => ((m.heap id).getVar (cs!"PATH")).map Var.value) = _
        rw [a2]
        congr 1
        funext i
        congr 1
        have := a3 i (cs!"PATH")
        rw [if_neg (fun e => p3 e.2.symm)] at this
        exact this
      funcs := fun f => by
        rw [← h.funcs f]
        show m.isFunction f = _
        rw [isFunction_isSome, isFunction_isSome, a6]
      stack := a2.trans h.stack
      writable := fun y hy hro b hb => by
        by_cases e : y = x
        · rw [e, show ({ s with masked := true, ctx := m } : Sh).ctx.getVar x = _ from a4] at hb
          cases hb
          rfl
        · rw [show ({ s with masked := true, ctx := m } : Sh).ctx.getVar y = _ from a5 y hy e] at hb
          exact h.writable y hy hro b hb
      ps1 := by
        show (m.getVar (cs!"PS1")).map Var.value ≠ none
        rw [hval _ (unqualified_iff.2 rfl)]
        split
        · simp
        · exact h.ps1
      ran := h.ran
      waits := h.waits }
  | cd d =>
    have hmean : d.typed.Means (valueOf s) (d.value σ.vars) := MiniWord.means h.clean h.vars ht
    have hrun := evalPipeline_cd w rec (s := s) (by rw [hal]; exact S.noAlias.2) hmean
    rw [show w.chdir s.trace s.cwd (d.value σ.vars) = u.dirs σ.cwd (d.value σ.vars) by rw [S.dirs, h.cwd]] at hrun
    rcases e : u.dirs σ.cwd (d.value σ.vars) with _ | d'
    · have hstep : u.step σ (.cd d) = { σ with stopped := true } := by
        simp [MiniWorld.step, hgo, e]
      rw [e] at hrun
      rw [hstep]
      exact ⟨_, _, hrun, by simp [EndsAs], h.masked.restated rfl rfl rfl rfl rfl rfl, rfl,
        fun e h => by cases h; rfl, fun _ => by simp [printed]⟩
    · have hstep : u.step σ (.cd d) = { σ with cwd := d', status := 0 } := by
        simp [MiniWorld.step, hgo, e]
      rw [e] at hrun
      rw [hstep]
      obtain ⟨h1, h2, h3, h4, h5, h6, h7, h8, h9, h10, h11, h12, h13, h14⟩ := h
      exact ⟨_, _, hrun, by simp [EndsAs, hgo],
        ⟨h1.trans rfl, h2, h3, rfl, h5, h6, h7, h8, h9, h10, h11, h12, h13, h14⟩, rfl,
        nofun, fun _ => by simp [printed]⟩
  | run c cs =>
    have hstep : u.step σ (.run c cs) = { σ with
        status := u.code σ.started
        recorded := u.code σ.started
        started := σ.started + (c :: cs).length
        ran := σ.ran ++ [(σ.cwd, (c :: cs).map (MiniCmd.argv σ.vars))]
        reported := σ.reported ++ exits u.pid u.code σ.started (c :: cs).length } := by
      simp [MiniWorld.step, hgo]
    rw [hstep] at hb ⊢
    let p : ExtPipe := { first := c.ext σ.vars, rest := cs.map (MiniCmd.ext σ.vars) }
    have hst : p.stages = (c :: cs).map (MiniCmd.ext σ.vars) := rfl
    have hty : p.typed = MiniStep.typed (.run c cs) := by
      simp [ExtPipe.typed, MiniStep.typed, p, MiniCmd.ext_tcmd, Function.comp_def]
    have hfds : s.fds = stdTable := by rw [hsame]; exact S.fds
    have hheld : s.held = [] := by rw [hsame]; exact S.held
    have hown : s.ownGroup = false := by rw [hsame]; exact S.own
    have henv : s.env = s0.env := by rw [hsame]
    have hdisp : s.disp = s0.disp := by rw [hsame]
    have P : Setting w u.pid (fun e => file e.name) s (· ∈ p.stages) := {
      res := S.res
      pids := S.pids
      inj := S.inj
      fds := hfds
      held := hheld
      own := hown
      simple := fun e he => by
        rw [hst] at he
        obtain ⟨k, hk, rfl⟩ := List.mem_map.1 he
        obtain ⟨k1, k2, k3, k4, k5, k6, k7⟩ := ht k hk
        refine ⟨⟨k1, k2, .inl ⟨by rw [hal]; exact k3, rfl, rfl⟩, by rw [h.funcs]; exact k4, ?_, ?_, by simp [MiniCmd.ext]⟩, k1, ?_, rfl, rfl⟩
        · intro a ha
          simp only [MiniCmd.ext, Ext.words, List.append_nil, List.mem_map] at ha
          obtain ⟨a, ha, rfl⟩ := ha
          exact MiniWord.means h.clean h.vars (k6 a ha)
        · intro v hv
          rw [MiniCmd.ext_argv] at hv
          simp only [MiniCmd.argv, List.mem_cons, List.mem_map] at hv
          rcases hv with rfl | ⟨a, ha, rfl⟩
          · exact k5
          · exact MiniWord.noNul h.clean (k6 a ha)
        · intro a ha
          simp only [MiniCmd.ext, List.mem_map] at ha
          obtain ⟨a, ha, rfl⟩ := ha
          exact (k6 a ha).1
      runs := fun e he tr => by
        rw [hst] at he
        obtain ⟨k, hk, rfl⟩ := List.mem_map.1 he
        obtain ⟨⟨pa, b1, b2⟩, b3, b4⟩ := (ht k hk).runs tr
        exact ⟨⟨pa, h.path.trans b1, b2⟩, b3, b4⟩ }
    obtain ⟨more, m1, m2⟩ := hb
    have hlen : p.stages.length = (c :: cs).length := by rw [hst, List.length_map]
    have hw : s.waits = exits u.pid u.code (forks s.trace) p.stages.length ++ more := by
      have := h.waits
      rw [m1, List.append_assoc] at this
      rw [h.started, hlen]
      exact List.append_cancel_left this
    obtain ⟨s', a1, a2, a3, a4⟩ := play_pipe P rec u.code (p := p) rfl (fun e he => he) (Ran.refl s) h.table hw m2
    rw [hty] at a1
    rw [h.started] at a1 a2
    have hctx : s'.ctx = s.ctx := by have := a4.ran; unfold Ran at this; rw [this]
    have hcwd : s'.cwd = s.cwd := by have := a4.ran; unfold Ran at this; rw [this]
    have hvo : valueOf s' = valueOf s := by funext x; unfold valueOf; rw [hctx]
    refine ⟨_, s', a1, by simp [EndsAs, hgo], ?_, hctx, nofun, fun h => absurd rfl (h c cs)⟩
    exact {
      same := h.same.trans a4.ran.mini
      vars := by rw [hvo]; exact h.vars
      clean := h.clean
      cwd := hcwd.trans h.cwd
      status := a2
      started := by
        rw [a4.forks, h.started]
        simp [programsIn, hlen]
      table := a4.table
      path := by rw [← h.path]; unfold pathOf; rw [hctx]
      funcs := by rw [hctx]; exact h.funcs
      stack := by rw [hctx]; exact h.stack
      writable := by rw [hctx]; exact h.writable
      ps1 := by rw [hvo]; exact h.ps1
      ran := by
        obtain ⟨g, g1, g2⟩ := h.ran
        obtain ⟨gs, k1, k2⟩ := a4.programs
        cases k1 with
        | @cons _ _ imgs _ k1 k3 =>
          cases k3
          refine ⟨g ++ [imgs], .snoc g1 ?_, by rw [k2, g2]; simp⟩
          have hpr := k1.programs
          rw [hst, List.map_map] at hpr
          refine ⟨?_, ?_, k1.plumbed, ?_⟩
          · have := congrArg (List.map Prod.snd) hpr
            simp only [List.map_map, Function.comp_def, MiniCmd.ext_argv] at this
            exact this
          · intro img hi
            have : (img.path, img.argv) ∈ imgs.map fun img => (img.path, img.argv) := List.mem_map_of_mem hi
            rw [hpr] at this
            obtain ⟨k, -, hk⟩ := List.mem_map.1 this
            simp only [Function.comp_def, Prod.mk.injEq] at hk
            exact ⟨k.name, _, hk.2.symm, hk.1.symm⟩
          · intro img hi
            obtain ⟨l1, l2, l3⟩ := k1.launched img hi
            exact ⟨l1.trans henv, l2, l3.1, l3.2.trans h.cwd, fun n => by rw [l3.3 n, hdisp]⟩
      waits := by rw [a3, m1] }
  | «export» x q v => exact ht.elim
  | unset x g => exact ht.elim
  | exit c => exact ht.elim
  | source d p as => exact ht.elim
  | eval a as => exact ht.elim
  | full c cs => exact ht.elim
  | «return» c => exact ht.elim
  | pwd => exact ht.elim
  | other b => exact ht.elim

/-- One step. -/
theorem mini_step {w : World} {u : MiniWorld} {file : Str → Str} {all : List WRes} {s0 : Sh} (S : MiniSetting w u s0)
    (rec : List AndOr → M Int) {σ : MiniState} {s : Sh} (h : Sim u file all s0 σ s) (hgo : σ.stopped = false)
    {t : MiniStep} (ht : t.Ok w file s0) (hb : Begins all (u.step σ t)) :
    ∃ o s', evalPipeline w rec t.typed.pipeline s = (o, s') ∧ EndsAs (u.step σ t) o ∧
      Sim u file all s0 (u.step σ t) s' := by
  obtain ⟨o, s', a1, a2, a3, -⟩ := mini_step_ctx S rec h hgo ht hb
  exact ⟨o, s', a1, a2, a3⟩

/-- The steps after the first of a chain. -/
theorem mini_links {w : World} {u : MiniWorld} {file : Str → Str} {all : List WRes} {s0 : Sh} (S : MiniSetting w u s0)
    (rec : List AndOr → M Int) (rs : List (CondExec × MiniStep)) :
    ∀ {t : AndOr} {s s1 : Sh} {o : Out Int} {σ : MiniState}, evalAndOr w rec t s = (o, s1) → EndsAs σ o →
      Sim u file all s0 σ s1 → (∀ l ∈ rs, l.2.Ok w file s0) → Begins all (rs.foldl u.link σ) →
      ∃ o' s', evalAndOr w rec ((rs.map fun l => (l.1, l.2.typed)).foldl
          (fun t l => .mk (some t) (some l.1) l.2.pipeline) t) s = (o', s') ∧ EndsAs (rs.foldl u.link σ) o' ∧
        Sim u file all s0 (rs.foldl u.link σ) s' := by
  induction rs with
  | nil =>
    intro t s s1 o σ he hend hsim _ _
    exact ⟨o, s1, he, hend, hsim⟩
  | cons r rs ih =>
    intro t s s1 o σ he hend hsim hok hb
    obtain ⟨op, st⟩ := r
    rw [List.foldl_cons] at hb ⊢
    rw [List.map_cons, List.foldl_cons]
    have hokr : ∀ l ∈ rs, l.2.Ok w file s0 := fun l hl => hok l (List.mem_cons_of_mem _ hl)
    have hb1 : Begins all (u.link σ (op, st)) := hb.before (later_foldl (later_link u) _ _)
    by_cases hgo : σ.stopped = true
    · have hl : u.link σ (op, st) = σ := by
        cases op <;> simp [MiniWorld.link, MiniWorld.step, hgo]
      rw [hl] at hb ⊢
      refine ih (o := o) ?_ hend hsim hokr hb
      unfold EndsAs at hend
      rw [if_pos hgo] at hend
      obtain ⟨e, rfl⟩ := hend
      rw [evalAndOr]
      exact run_bind_stop he (fun _ h => (nomatch h)) _
    · have hgo' : σ.stopped = false := by simpa using hgo
      have ho : o = .ok σ.status := by
        unfold EndsAs at hend
        rw [if_neg hgo] at hend
        exact hend
      subst ho
      have skip : u.link σ (op, st) = σ →
          evalAndOr w rec (.mk (some t) (some op) st.typed.pipeline) s = (.ok σ.status, s1) →
          ∃ o' s', evalAndOr w rec ((rs.map fun l => (l.1, l.2.typed)).foldl
              (fun t l => .mk (some t) (some l.1) l.2.pipeline) (.mk (some t) (some op) st.typed.pipeline)) s = (o', s') ∧
            EndsAs (rs.foldl u.link (u.link σ (op, st))) o' ∧
            Sim u file all s0 (rs.foldl u.link (u.link σ (op, st))) s' := by
        intro e1 e2
        rw [e1] at hb ⊢
        exact ih e2 hend hsim hokr hb
      have next : u.link σ (op, st) = u.step σ st →
          evalAndOr w rec (.mk (some t) (some op) st.typed.pipeline) s = evalPipeline w rec st.typed.pipeline s1 →
          ∃ o' s', evalAndOr w rec ((rs.map fun l => (l.1, l.2.typed)).foldl
              (fun t l => .mk (some t) (some l.1) l.2.pipeline) (.mk (some t) (some op) st.typed.pipeline)) s = (o', s') ∧
            EndsAs (rs.foldl u.link (u.link σ (op, st))) o' ∧
            Sim u file all s0 (rs.foldl u.link (u.link σ (op, st))) s' := by
        intro e1 e2
        rw [e1] at hb hb1 ⊢
        obtain ⟨o2, s2, a1, a2, a3⟩ := mini_step S rec hsim hgo' (hok (op, st) List.mem_cons_self) hb1
        exact ih (e2.trans a1) a2 a3 hokr hb
      cases op with
      | and =>
        by_cases h0 : σ.status = 0
        · refine next (by simp [MiniWorld.link, h0]) ?_
          rw [evalAndOr, run_bind_ok he]
          simp [h0]
        · refine skip (by simp [MiniWorld.link, h0]) ?_
          rw [evalAndOr, run_bind_ok he]
          simp [h0]
      | or =>
        by_cases h0 : σ.status = 0
        · refine skip (by simp [MiniWorld.link, h0]) ?_
          rw [evalAndOr, run_bind_ok he]
          simp [h0]
        · refine next (by simp [MiniWorld.link, h0]) ?_
          rw [evalAndOr, run_bind_ok he]
          simp [h0]

/-- A chain. -/
theorem mini_chain {w : World} {u : MiniWorld} {file : Str → Str} {all : List WRes} {s0 : Sh} (S : MiniSetting w u s0)
    (rec : List AndOr → M Int) {σ : MiniState} {s : Sh} (h : Sim u file all s0 σ s) (hgo : σ.stopped = false)
    {c : MiniChain} (hc : ∀ t ∈ c.steps, t.Ok w file s0) (hb : Begins all (u.chain σ c)) :
    ∃ o s', evalAndOr w rec c.typed.tree s = (o, s') ∧ EndsAs (u.chain σ c) o ∧ Sim u file all s0 (u.chain σ c) s' := by
  obtain ⟨o, s1, a1, a2, a3⟩ := mini_step S rec h hgo (hc c.first List.mem_cons_self)
    (hb.before (later_foldl (later_link u) _ _))
  have e1 : evalAndOr w rec (.mk none none c.first.typed.pipeline) s = (o, s1) := by
    rw [evalAndOr]
    exact a1
  exact mini_links S rec c.rest e1 a2 a3 (fun l hl => hc l.2 (List.mem_cons_of_mem _ (List.mem_map_of_mem hl))) hb

theorem step_stopped (u : MiniWorld) {σ : MiniState} (h : σ.stopped = true) (t : MiniStep) : u.step σ t = σ := by
  simp [MiniWorld.step, h]

theorem chain_stopped (u : MiniWorld) {σ : MiniState} (h : σ.stopped = true) (c : MiniChain) : u.chain σ c = σ := by
  unfold MiniWorld.chain
  rw [step_stopped u h]
  induction c.rest with
  | nil => rfl
  | cons r rs ih =>
    rw [List.foldl_cons]
    have : u.link σ r = σ := by
      unfold MiniWorld.link
      rw [step_stopped u h]
      cases r.1 <;> simp
    rw [this]
    exact ih

theorem chains_stopped (u : MiniWorld) {σ : MiniState} (h : σ.stopped = true) (cs : List MiniChain) :
    cs.foldl u.chain σ = σ := by
  induction cs with
  | nil => rfl
  | cons c cs ih => rw [List.foldl_cons, chain_stopped u h]; exact ih

/-- Chains one after the other. -/
theorem mini_chains {w : World} {u : MiniWorld} {file : Str → Str} {all : List WRes} {s0 : Sh} (S : MiniSetting w u s0)
    (rec : List AndOr → M Int) (cs : List MiniChain) :
    ∀ {σ : MiniState} {s : Sh} {st : Int}, Sim u file all s0 σ s → σ.stopped = false →
      (∀ c ∈ cs, ∀ t ∈ c.steps, t.Ok w file s0) → Begins all (cs.foldl u.chain σ) →
      ∃ o s', evalListFrom w rec st (cs.map fun c => c.typed.tree) s = (o, s') ∧
        ((∃ r, o = .ok r) ∨ ∃ e, o = .err e) ∧ Sim u file all s0 (cs.foldl u.chain σ) s' := by
  induction cs with
  | nil =>
    intro σ s st h _ _ _
    exact ⟨_, s, rfl, .inl ⟨st, rfl⟩, h⟩
  | cons c cs ih =>
    intro σ s st h hgo hok hb
    rw [List.foldl_cons] at hb ⊢
    obtain ⟨o, s1, a1, a2, a3⟩ := mini_chain S rec h hgo (hok c List.mem_cons_self)
      (hb.before (later_foldl (later_chain u) _ _))
    rw [List.map_cons, evalListFrom]
    by_cases hs : (u.chain σ c).stopped = true
    · unfold EndsAs at a2
      rw [if_pos hs] at a2
      obtain ⟨e, rfl⟩ := a2
      rw [chains_stopped u hs]
      exact ⟨.err e, s1, run_bind_stop a1 (fun _ h => (nomatch h)) _, .inr ⟨e, rfl⟩, a3⟩
    · unfold EndsAs at a2
      rw [if_neg hs] at a2
      subst a2
      rw [run_bind_ok a1]
      exact ih a3 (by simpa using hs) (fun c' h => hok c' (List.mem_cons_of_mem _ h)) hb

end Rsh
