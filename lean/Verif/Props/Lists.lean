import Verif.Spec.Lists
import Verif.Proofs.Builtin

/-!
# Properties C57-C60, C66: lists, chains and negation
-/

namespace Rsh

open Spec

theorem run_bind_stop {m : M α} {s s1 : Sh} {o : Out α} (h : m s = (o, s1)) (ho : ∀ a, o ≠ .ok a) (f : α → M α) :
    (m >>= f) s = (o, s1) := by
  rw [run_bind, h]
  cases o with
  | ok a => exact absurd rfl (ho a)
  | _ => rfl

theorem evalText_line (w : World) (n : Nat) {l : TLine} (h : l.Ok) :
    evalText w (n + 1) l.text = evalListFrom w (evalFuel w n) (-1) l.tree := by
  unfold evalText
  rw [parse_tline h]
  rfl

theorem evalListFrom_one (w : World) (rec : List AndOr → M Int) (st : Int) (a : AndOr) :
    evalListFrom w rec st [a] = evalAndOr w rec a := by
  unfold evalListFrom
  show (evalAndOr w rec a >>= fun st => evalListFrom w rec st []) = _
  have : (fun st => evalListFrom w rec st []) = pure := rfl
  rw [this, bind_pure]

theorem evalText_chain (w : World) (n : Nat) {c : TChain} (h : c.line.Ok) :
    evalText w (n + 1) c.line.text = evalAndOr w (evalFuel w n) c.tree := by
  rw [evalText_line w n h]
  exact evalListFrom_one ..

theorem evalText_pipe (w : World) (n : Nat) {p : TPipe} (h : p.line.Ok) :
    evalText w (n + 1) p.line.text = evalPipeline w (evalFuel w n) p.pipeline := by
  rw [evalText_line w n h]
  refine (evalListFrom_one ..).trans ?_
  show evalAndOr w _ (.mk none none p.pipeline) = _
  unfold evalAndOr
  rfl

theorem TChain.snoc_tree (c : TChain) (op : CondExec) (p : TPipe) :
    (c.snoc op p).tree = .mk (some c.tree) (some op) p.pipeline := by
  simp [TChain.snoc, TChain.tree, List.foldl_append]

theorem TChain.ok_snoc {c : TChain} {op : CondExec} {p : TPipe} (h : (c.snoc op p).line.Ok) :
    c.line.Ok ∧ p.line.Ok := by
  constructor <;> intro d hd <;> refine h d ?_
  · simp [TChain.line, TLine.cmds, TChain.snoc] at hd ⊢
    rcases hd with hd | hd
    · exact .inl hd
    · obtain ⟨a, b, h1, h2⟩ := hd
      exact .inr (.inl ⟨a, b, h1, h2⟩)
  · simp [TChain.line, TPipe.line, TLine.cmds, TChain.snoc] at hd ⊢
    exact .inr (.inr hd)

theorem TChain.snocInd {P : TChain → Prop} (one : ∀ p, P { first := p }) (snoc : ∀ c op p, P c → P (c.snoc op p))
    (c : TChain) : P c := by
  obtain ⟨first, rest⟩ := c
  have key : ∀ n (rest : List (CondExec × TPipe)), rest.length = n → P ⟨first, rest⟩ := by
    intro n
    induction n with
    | zero => intro rest h; rw [List.length_eq_zero_iff.1 h]; exact one first
    | succ n ih =>
      intro rest h
      rcases List.eq_nil_or_concat rest with rfl | ⟨r, ⟨op, p⟩, rfl⟩
      · simp at h
      · rw [List.concat_eq_append]
        exact snoc ⟨first, r⟩ op p (ih r (by simpa using h))
  exact key _ rest rfl

/-! ## C57 -/

/-- C57: a chain of `&&` and `||`, typed as a line, runs each pipeline after the first exactly if the
status of what precedes it asks for that; its status is that of the last pipeline run; whatever ends
otherwise than with a status ends the chain. -/
theorem C57_chain (w : World) (n : Nat) (s : Sh) (c : TChain) (hc : c.line.Ok) :
    ∃ ran, Chained (fun p => evalText w (n + 1) p.line.text) s c (evalText w (n + 1) c.line.text s) ran := by
  induction c using TChain.snocInd with
  | one p => exact ⟨_, .one⟩
  | snoc c op p ih =>
    obtain ⟨h1, h2⟩ := TChain.ok_snoc hc
    obtain ⟨ran, ih⟩ := ih h1
    rcases hr : evalText w (n + 1) c.line.text s with ⟨o, s1⟩
    rw [hr] at ih
    rw [evalText_chain w n h1] at hr
    rw [evalText_chain w n hc, TChain.snoc_tree]
    unfold evalAndOr
    cases o with
    | ok st =>
      rw [run_bind_ok hr]
      cases op with
      | and =>
        by_cases h0 : st = 0
        · subst h0
          refine ⟨ran ++ [p], ?_⟩
          have := Chained.next (p := p) (op := .and) ih rfl
          rw [evalText_pipe w n h2] at this
          exact this
        · refine ⟨ran, ?_⟩
          simp only [ne_eq, h0, not_false_eq_true, if_true]
          exact .skip ih h0
      | or =>
        by_cases h0 : st = 0
        · subst h0
          exact ⟨_, .skip ih fun h => h rfl⟩
        · refine ⟨ran ++ [p], ?_⟩
          have := Chained.next (p := p) (op := .or) ih h0
          rw [evalText_pipe w n h2] at this
          simp only [h0, if_false]
          exact this
    | _ =>
      rw [run_bind_stop hr (by simp)]
      exact ⟨ran, .stop ih (by simp)⟩

/-- The outcome of a chain is determined, and so are the pipelines that run. -/
theorem C57_determined (alone : TPipe → M Int) (s : Sh) (c : TChain) (r r' : Out Int × Sh) (ran ran' : List TPipe)
    (h : Chained alone s c r ran) (h' : Chained alone s c r' ran') : r = r' ∧ ran = ran' := by
  have snoc_inj : ∀ {c c' : TChain} {op op' : CondExec} {p p' : TPipe}, c.snoc op p = c'.snoc op' p' →
      c = c' ∧ op = op' ∧ p = p' := by
    intro c c' op op' p p' e
    obtain ⟨f, r⟩ := c
    obtain ⟨f', r'⟩ := c'
    simp only [TChain.snoc, TChain.mk.injEq] at e
    have := List.append_inj' e.2 rfl
    simp_all
  have snoc_ne : ∀ {c : TChain} {op : CondExec} {p p' : TPipe}, ({ first := p' } : TChain) ≠ c.snoc op p := by
    intro c op p p' e
    simp [TChain.snoc] at e
  induction h generalizing r' ran' with
  | one =>
    generalize hc : ({ first := _ } : TChain) = c0 at h'
    cases h' with
    | one => cases hc; exact ⟨rfl, rfl⟩
    | _ => exact absurd hc snoc_ne
  | skip h1 hg ih =>
    generalize hc : TChain.snoc _ _ _ = c0 at h'
    cases h' with
    | one => exact absurd hc.symm snoc_ne
    | skip h2 hg2 =>
      obtain ⟨rfl, rfl, rfl⟩ := snoc_inj hc
      obtain ⟨e, e'⟩ := ih _ _ h2
      cases e; exact ⟨rfl, e'⟩
    | next h2 hg2 =>
      obtain ⟨rfl, rfl, rfl⟩ := snoc_inj hc
      obtain ⟨e, e'⟩ := ih _ _ h2
      cases e; exact absurd hg2 hg
    | stop h2 hg2 =>
      obtain ⟨rfl, rfl, rfl⟩ := snoc_inj hc
      obtain ⟨e, e'⟩ := ih _ _ h2
      cases e; exact absurd rfl (hg2 _)
  | next h1 hg ih =>
    generalize hc : TChain.snoc _ _ _ = c0 at h'
    cases h' with
    | one => exact absurd hc.symm snoc_ne
    | skip h2 hg2 =>
      obtain ⟨rfl, rfl, rfl⟩ := snoc_inj hc
      obtain ⟨e, e'⟩ := ih _ _ h2
      cases e; exact absurd hg hg2
    | next h2 hg2 =>
      obtain ⟨rfl, rfl, rfl⟩ := snoc_inj hc
      obtain ⟨e, e'⟩ := ih _ _ h2
      cases e; cases e'; exact ⟨rfl, rfl⟩
    | stop h2 hg2 =>
      obtain ⟨rfl, rfl, rfl⟩ := snoc_inj hc
      obtain ⟨e, e'⟩ := ih _ _ h2
      cases e; exact absurd rfl (hg2 _)
  | stop h1 hg ih =>
    generalize hc : TChain.snoc _ _ _ = c0 at h'
    cases h' with
    | one => exact absurd hc.symm snoc_ne
    | skip h2 hg2 =>
      obtain ⟨rfl, rfl, rfl⟩ := snoc_inj hc
      obtain ⟨e, e'⟩ := ih _ _ h2
      cases e; exact absurd rfl (hg _)
    | next h2 hg2 =>
      obtain ⟨rfl, rfl, rfl⟩ := snoc_inj hc
      obtain ⟨e, e'⟩ := ih _ _ h2
      cases e; exact absurd rfl (hg _)
    | stop h2 hg2 =>
      obtain ⟨rfl, rfl, rfl⟩ := snoc_inj hc
      obtain ⟨e, e'⟩ := ih _ _ h2
      cases e; exact ⟨rfl, e'⟩

/-- A pipeline of one word. -/
def wordPipe (x : Str) : TPipe := { first := { name := some (.plain x) } }

example : let c : TChain := ⟨wordPipe (cs!"a"), [(.and, wordPipe (cs!"b")), (.or, wordPipe (cs!"c"))]⟩
    c.line.text = cs!" a && b || c" ∧ c.line.cmds.all (fun c => c.before = [] ∧ c.after = []) := by
  decide +kernel

example : started (demo [cs!"a && b || c"] [.st (.exited 100 1), .err, .st (.exited 101 0)]).trace = [[cs!"a"], [cs!"c"]] ∧
    started (demo [cs!"a && b || c"] [.st (.exited 100 0), .err, .st (.exited 101 0)]).trace = [[cs!"a"], [cs!"b"]] := by
  decide +kernel

/-! ## C58 -/

/-- C58: the chains of a line run from left to right, each from the state left by the one before; the
status is that of the last one.  (A chain that ends otherwise than with a status ends the line; for
failing builtins see C59.) -/
theorem C58_list (w : World) (n : Nat) (s : Sh) (l : TLine) (hl : l.Ok) :
    Listed (fun c => evalText w (n + 1) c.line.text) l.first l.rest s (evalText w (n + 1) l.text s) := by
  obtain ⟨c, cs⟩ := l
  rw [evalText_line w n hl]
  have key : ∀ (cs : List TChain) (c : TChain) (st : Int) (s : Sh), (∀ c' ∈ c :: cs, c'.line.Ok) →
      Listed (fun c => evalText w (n + 1) c.line.text) c cs s
        (evalListFrom w (evalFuel w n) st ((c :: cs).map TChain.tree) s) := by
    intro cs
    induction cs with
    | nil =>
      intro c st s h
      rw [List.map_cons, List.map_nil, evalListFrom_one, ← evalText_chain w n (h c List.mem_cons_self)]
      exact .one
    | cons c' cs ih =>
      intro c st s h
      rw [List.map_cons]
      unfold evalListFrom
      have hc := evalText_chain w n (h c List.mem_cons_self)
      rcases hr : evalText w (n + 1) c.line.text s with ⟨o, s1⟩
      cases o with
      | ok st1 =>
        refine .next hr ?_
        rw [run_bind_ok (by rw [← hc]; exact hr)]
        exact ih c' st1 s1 fun d hd => h d (List.mem_cons_of_mem _ hd)
      | _ =>
        have hr' := hr
        rw [hc] at hr'
        rw [run_bind_stop hr' (by simp)]
        exact .stop hr (by simp)
  refine key cs c (-1) s fun c' hc' d hd => hl d ?_
  unfold TLine.cmds
  simp only [List.mem_flatMap]
  exact ⟨c', hc', by simpa [TChain.line, TLine.cmds] using hd⟩

/-- C58: `a ; b` on one line is `a` and then `b` on the next line. -/
theorem C58_lines (w : World) (n : Nat) (s s1 : Sh) (st : Int) (a b : TChain) (ha : a.line.Ok) (hb : b.line.Ok)
    (h : evalText w (n + 1) a.line.text s = (.ok st, s1)) :
    interactiveLine w (n + 1) (⟨a, [b]⟩ : TLine).text s =
      (do interactiveLine w (n + 1) a.line.text; interactiveLine w (n + 1) b.line.text : M Unit) s := by
  have hok : (⟨a, [b]⟩ : TLine).Ok := by
    intro d hd
    simp only [TLine.cmds, List.mem_flatMap, List.mem_cons, List.not_mem_nil, or_false] at hd
    obtain ⟨c, rfl | rfl, hd⟩ := hd
    · exact ha d (by simpa [TChain.line, TLine.cmds] using hd)
    · exact hb d (by simpa [TChain.line, TLine.cmds] using hd)
  have hline : ∀ {l : TLine}, l.Ok → interactiveLine w (n + 1) l.text =
      (do match ← tryE (evalText w (n + 1) l.text) with
          | .ok _ => pure ()
          | .error e => printlnM e) := by
    intro l hl
    unfold interactiveLine evalText
    rw [if_neg (TLine.text_ne hl), parse_tline hl]
    rfl
  rw [hline hok, hline ha, hline hb]
  have e1 : evalText w (n + 1) (⟨a, [b]⟩ : TLine).text s = evalText w (n + 1) b.line.text s1 := by
    rw [evalText_line w n hok]
    show evalListFrom w _ (-1) [a.tree, b.tree] s = _
    unfold evalListFrom
    rw [run_bind_ok (by rw [← evalText_chain w n ha]; exact h), evalListFrom_one, evalText_chain w n hb]
  rw [bind_assoc, run_bind_ok (run_tryE_ok h)]
  rw [run_bind, run_tryE, e1]
  show _ = ((do match ← tryE (evalText w (n + 1) b.line.text) with
          | .ok _ => pure ()
          | .error e => printlnM e) : M Unit) s1
  conv => rhs; rw [run_bind, run_tryE]

example : started (demo [cs!"a ; b ; c"]
    [.st (.exited 100 1), .err, .st (.exited 101 2), .err, .st (.exited 102 3)]).trace = [[cs!"a"], [cs!"b"], [cs!"c"]] ∧
    (demo [cs!"a ; b ; c"] [.st (.exited 100 1), .err, .st (.exited 101 2), .err, .st (.exited 102 3)]).exitStatus = 3 := by
  decide +kernel

/-! ## C59 -/

/-- C59 fails: what follows a failing builtin on the line does not run, and `||` does not see it. -/
theorem C59_stops (w : World) (n : Nat) (s s1 : Sh) (e : Str) (c : TChain) (cs : List TChain)
    (hl : (⟨c, cs⟩ : TLine).Ok) (h : evalText w (n + 1) c.line.text s = (.err e, s1)) :
    interactiveLine w (n + 1) (⟨c, cs⟩ : TLine).text s = printlnM e s1 := by
  have hr : evalText w (n + 1) (⟨c, cs⟩ : TLine).text s = (.err e, s1) := by
    have := C58_list w n s ⟨c, cs⟩ hl
    generalize evalText w (n + 1) (⟨c, cs⟩ : TLine).text s = r at this
    cases cs with
    | nil => cases this; exact h
    | cons c' cs =>
      cases this with
      | next h1 _ => rw [h] at h1; cases h1
      | stop h1 _ => exact h1.symm.trans h
  unfold evalText at hr
  rw [parse_tline hl] at hr
  unfold interactiveLine
  rw [if_neg (TLine.text_ne hl), parse_tline hl]
  simp only
  rw [run_bind_ok (run_tryE_err hr)]

/-- C59, as far as it holds: a failing builtin, typed as the last command of a line or alone, prints its
message and the shell goes on. -/
theorem C59_goesOn_partial (w : World) (n : Nat) (s s1 : Sh) (e : Str) (c : TChain)
    (hl : c.line.Ok) (h : evalText w (n + 1) c.line.text s = (.err e, s1)) :
    ∃ s', interactiveLine w (n + 1) c.line.text s = (.ok (), s') ∧
      s' = { s1 with trace := s'.trace } ∧ s'.trace = .print ((s1.fds.get 1).map FdE.chan) (e ++ ['\n']) :: s1.trace := by
  exact ⟨_, C59_stops w n s s1 e c [] hl h, rfl, rfl⟩

/-- C59 fails: neither `;` nor `||` goes on after `cd /nope`. -/
theorem C59_counterexample :
    started (demo [cs!"cd /nope ; a"]).trace = [] ∧ started (demo [cs!"cd /nope || a"]).trace = [] ∧
      outcome (demoOut [cs!"cd /nope ; a"]) = .ok := by
  decide +kernel

/-! ## C60 -/

/-- C60, as far as it holds: `! p` runs `p`, with the same effects.  But the status is also the same: the
exclamation mark has no effect at all. -/
theorem C60_runs_partial (w : World) (n : Nat) (p : TPipe) (hp : p.line.Ok) (hf : p.background = false) :
    evalText w (n + 1) { p with bang := true }.line.text = evalText w (n + 1) { p with bang := false }.line.text := by
  have h1 : ({ p with bang := true } : TPipe).line.Ok := hp
  have h2 : ({ p with bang := false } : TPipe).line.Ok := hp
  rw [evalText_pipe w n h1, evalText_pipe w n h2]
  unfold TPipe.pipeline evalPipeline
  simp [Pipeline.seq, Pipeline.background, TPipe.cmds, hf]

/-- C60 fails: `! a` fails when `a` fails, and `! a && b` runs `b` when `a` succeeds. -/
theorem C60_counterexample :
    (demo [cs!"! a"] [.st (.exited 100 1)]).exitStatus = 1 ∧
    started (demo [cs!"! a && b"] [.st (.exited 100 0), .err, .st (.exited 101 0)]).trace = [[cs!"a"], [cs!"b"]] := by
  decide +kernel

/-! ## C66 -/

/-- C66, as far as it holds: `! p &` runs `p`.  But it is evaluated like `p` without `&`, in the
foreground. -/
theorem C66_runs_partial (w : World) (n : Nat) (p : TPipe) (hp : p.line.Ok) :
    evalText w (n + 1) { p with bang := true, background := true }.line.text =
      evalText w (n + 1) { p with bang := false, background := false }.line.text := by
  have h1 : ({ p with bang := true, background := true } : TPipe).line.Ok := hp
  have h2 : ({ p with bang := false, background := false } : TPipe).line.Ok := hp
  rw [evalText_pipe w n h1, evalText_pipe w n h2]
  unfold TPipe.pipeline evalPipeline
  simp [Pipeline.seq, Pipeline.background, TPipe.cmds]

/-- C66 fails: `! a &` waits for `a`. -/
theorem C66_counterexample :
    (demo [cs!"! a &"] [.st (.exited 100 0)]).waits = [] ∧
    (demo [cs!"a &"] [.st (.exited 100 0)]).waits = [.st (.exited 100 0)] ∧
    (demo [cs!"! a &"] [.st (.exited 100 0)]).jc.table = [] := by
  decide +kernel

end Rsh
