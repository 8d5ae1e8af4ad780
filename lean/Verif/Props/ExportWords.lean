import Verif.Props.Crash
import Verif.Spec.Alias

/-!
# Property C152: `export` word by word
-/

namespace Rsh

open Spec

/-- `export` with these arguments as it is typed; each comes with the text it stands for. -/
def Spec.exportCall (as : List (Part × Str)) : TCmd :=
  { name := some (.plain (cs!"export"))
    after := as.map Prod.fst }

/-- The text of a line with only this command. -/
def Spec.exportText (as : List (Part × Str)) : Str := (exportCall as).line.text

/-- An argument of `export` that has no meaning of its own as the first word, and that stands for the same text whatever the
variables are. -/
structure Spec.ExportArg (a : Part × Str) : Prop where
  typed : a.1.Ok
  word : wordsOf [a.1] = [a.1.text]
  fixed : ∀ get, Arrives (expansion get a.1.text) a.2
  list : ¬ Occurs (cs!"-p") a.2
  context : a.2 ≠ cs!"context"

/-- A computation that ends or crashes, and leaves the aliases and the mask alone. -/
def EndsPlain (m : M Unit) : Prop :=
  ∀ s, (∃ s', m s = (.ok (), s') ∧ s'.aliases = s.aliases ∧ s'.masked = s.masked) ∨ ∃ k s', m s = (.panic k, s')

theorem EndsPlain.exportSet (x : Str) : EndsPlain (exportSet x) := by
  intro s
  have h1 : (∃ m, addVarAt x 0 s = (.ok (), { s with ctx := m })) ∨ ∃ k s', addVarAt x 0 s = (.panic k, s') := by
    unfold addVarAt
    rw [run_getS_bind]
    cases s.ctx.addVarPos x 0 with
    | none => exact .inr ⟨_, _, rfl⟩
    | some m => exact .inl ⟨m, rfl⟩
  unfold Rsh.exportSet
  generalize splitSet x = kv
  obtain ⟨k, v⟩ := kv
  rcases h1 with ⟨m, h1⟩ | ⟨k, s', h1⟩
  · dsimp only
    rw [run_bind_ok h1]
    unfold setEnv
    dsimp only
    split
    · exact .inr ⟨_, _, rfl⟩
    · exact .inl ⟨_, rfl, rfl, rfl⟩
  · exact .inr ⟨k, s', run_bind_stop h1 (by simp) _⟩

theorem EndsPlain.exportName (x : Str) : EndsPlain (exportName x) := by
  intro s
  unfold Rsh.exportName expandVar
  simp only [reduceCtorEq, if_false, bind_assoc, run_getS_bind, run_pure_bind]
  cases s.ctx.envCtx with
  | none => exact .inr ⟨_, _, rfl⟩
  | some env =>
    simp only [unwrapM_some, run_pure_bind]
    cases (s.ctx.getVar x).map Var.value with
    | some v =>
      simp only
      cases (s.ctx.heap env).addSet (x ++ '=' :: v) with
      | none => exact .inr ⟨_, _, rfl⟩
      | some c => exact .inl ⟨_, rfl, rfl, rfl⟩
    | none =>
      simp only
      cases s.ctx.getFunction x with
      | none => exact .inl ⟨_, rfl, rfl, rfl⟩
      | some f =>
        simp only
        cases (s.ctx.heap env).addFunction x f with
        | mk c ro => cases ro <;> exact .inl ⟨_, rfl, rfl, rfl⟩

theorem EndsPlain.exportWord (x : Str) : EndsPlain (if hasChar '=' x then Rsh.exportSet x else Rsh.exportName x) := by
  split
  · exact .exportSet x
  · exact .exportName x

/-- The line, if all its words are such. -/
theorem exportCall_line (w : World) (n : Nat) {s : Sh} {as : List (Part × Str)} (hne : as ≠ [])
    (hal : s.aliases.get (cs!"export") = none) (h : ∀ a ∈ as, ExportArg a) :
    interactiveLine w (n + 1) (exportText as) s =
      reportM (exportAll (as.map Prod.snd)) { s with masked := true } := by
  have key : Arrive (valueOf s) (wordsOf (as.map Prod.fst)) (as.map Prod.snd) ∧ redirsOf (as.map Prod.fst) = [] := by
    clear hne
    induction as with
    | nil => exact ⟨.nil, rfl⟩
    | cons a as ih =>
      obtain ⟨h1, h2⟩ := ih fun b hb => h b (List.mem_cons_of_mem _ hb)
      have ha := h a List.mem_cons_self
      obtain ⟨p, v⟩ := a
      cases p with
      | arg t => exact ⟨.cons (ha.fixed _) h1, h2⟩
      | assign x t => exact ⟨.cons (ha.fixed _) h1, h2⟩
      | redir num op t => exact absurd ha.word (by simp [wordsOf])
  rw [exportText, builtin_line w n (c := exportCall as) (name := cs!"export") (vs := as.map Prod.snd)
    ⟨by simp [exportCall], by simp [exportCall], by simp [exportCall, Typed.Ok]; decide,
      by
        intro p hp
        obtain ⟨a, ha, rfl⟩ := List.mem_map.1 hp
        exact (h a ha).typed,
      by simp [exportCall]⟩ rfl rfl (by decide) (by decide) hal key.1, callBuiltin_export _ _ rfl]
  congr 1
  cases as with
  | nil => exact absurd rfl hne
  | cons a as =>
    have ha := h a List.mem_cons_self
    have hp : hasSub (cs!"-p") a.2 = false := (hasSub_false _ _).2 fun x y e => ha.list ⟨x, y, e⟩
    unfold bExport
    show (if hasSub (cs!"-p") a.2 then _ else if a.2 = cs!"context" then _ else _) = _
    rw [hp, if_neg (by simp), if_neg ha.context]
    rfl

/-- C152, as far as it holds: `export` with several words does what one `export` for the first word and one for the others do.
(What is missing are the words that mean something else at the first place.) -/
theorem C152_split_partial (w : World) (n : Nat) (s : Sh) (a b : Part × Str) (bs : List (Part × Str))
    (hal : s.aliases.get (cs!"export") = none) (h : ∀ x ∈ a :: b :: bs, ExportArg x) :
    interactiveLine w (n + 1) (exportText (a :: b :: bs)) s =
      (do interactiveLine w (n + 1) (exportText [a]); interactiveLine w (n + 1) (exportText (b :: bs)) : M Unit) s := by
  have h1 : ∀ x ∈ [a], ExportArg x := fun x hx => h x (by simp at hx; simp [hx])
  have h2 : ∀ x ∈ b :: bs, ExportArg x := fun x hx => h x (List.mem_cons_of_mem _ hx)
  rw [exportCall_line w n (by simp) hal h, run_bind, exportCall_line w n (by simp) hal h1]
  have e : exportAll ((a :: b :: bs).map Prod.snd) =
      ((if hasChar '=' a.2 then exportSet a.2 else exportName a.2) >>= fun _ => exportAll ((b :: bs).map Prod.snd)) := by
    rw [List.map_cons, exportAll]
    dsimp only
    split <;> rfl
  have e1 : exportAll ([a].map Prod.snd) { s with masked := true } = _ := exportAll_one a.2 { s with masked := true }
  rcases EndsPlain.exportWord a.2 { s with masked := true } with ⟨s', h3, h4, h5⟩ | ⟨k, s', h3⟩
  · rw [reportM_ok (e1.trans h3)]
    have hs : ({ s' with masked := true } : Sh) = s' := by
      cases s'
      simp only at h5
      subst h5
      rfl
    show _ = interactiveLine w (n + 1) (exportText (b :: bs)) s'
    rw [exportCall_line w n (by simp) (by rw [h4]; exact hal) h2, hs, e]
    show reportM _ _ = _
    unfold reportM
    rw [run_bind, run_bind]
    unfold tryE
    rw [run_bind_ok h3]
  · have h6 : reportM (exportAll ([a].map Prod.snd)) { s with masked := true } = (.panic k, s') := by
      unfold reportM
      rw [run_bind]
      unfold tryE
      rw [e1.trans h3]
    have h7 : reportM (exportAll ((a :: b :: bs).map Prod.snd)) { s with masked := true } = (.panic k, s') := by
      unfold reportM
      rw [run_bind]
      unfold tryE
      rw [e, run_bind_stop h3 (by simp)]
    rw [h6, h7]

/-- One line after the other. -/
def Spec.oneByOne (f : Part × Str → M Unit) : List (Part × Str) → M Unit
  | [] => pure ()
  | a :: as => do f a; oneByOne f as

/-- C152, as far as it holds: `export` with any number of words does what one `export` for each of them does, in the order of the
words. -/
theorem C152_each_partial (w : World) (n : Nat) (s : Sh) (as : List (Part × Str)) (hne : as ≠ [])
    (hal : s.aliases.get (cs!"export") = none) (h : ∀ x ∈ as, ExportArg x) :
    interactiveLine w (n + 1) (exportText as) s =
      oneByOne (fun a => interactiveLine w (n + 1) (exportText [a])) as s := by
  induction as generalizing s with
  | nil => exact absurd rfl hne
  | cons a as ih =>
    show _ = (do interactiveLine w (n + 1) (exportText [a]); oneByOne _ as : M Unit) s
    have h1 : ∀ x ∈ [a], ExportArg x := fun x hx => h x (by simp at hx; simp [hx])
    cases as with
    | nil =>
      rw [run_bind]
      generalize interactiveLine w (n + 1) (exportText [a]) s = r
      obtain ⟨o, s'⟩ := r
      cases o <;> rfl
    | cons b bs =>
      rw [C152_split_partial w n s a b bs hal h, run_bind, run_bind]
      have hl := exportCall_line w n (by simp) hal h1
      have e1 : exportAll ([a].map Prod.snd) { s with masked := true } = _ := exportAll_one a.2 { s with masked := true }
      rcases EndsPlain.exportWord a.2 { s with masked := true } with ⟨s', h3, h4, h5⟩ | ⟨k, s', h3⟩
      · rw [hl, reportM_ok (e1.trans h3)]
        exact ih s' (by simp) (by rw [h4]; exact hal) fun x hx => h x (List.mem_cons_of_mem _ hx)
      · have h6 : reportM (exportAll ([a].map Prod.snd)) { s with masked := true } = (.panic k, s') := by
          unfold reportM
          rw [run_bind]
          unfold tryE
          rw [e1.trans h3]
        rw [hl, h6]

/-- C152 fails: later words are never taken as options, while each alone would be. -/
theorem C152_counterexample :
    (demo [cs!"export A=1 B=x-p"]).env.get (cs!"B") = some (cs!"x-p") ∧
    (demo [cs!"export A=1", cs!"export B=x-p"]).env.get (cs!"B") = none := by
  decide +kernel

example : ∀ x ∈ [(Part.assign (cs!"A") (.plain (cs!"1")), cs!"A=1"), (.assign (cs!"B") (.single (cs!"2 3")), cs!"B='2 3'"),
    (.arg (.plain (cs!"C")), cs!"C")], ExportArg x := by
  have hp : ∀ {x : Str}, hasSub (cs!"-p") x = false → ¬ Occurs (cs!"-p") x := fun h h' => by
    have := (hasSub_iff ..).2 h'
    simp [h] at this
  intro x hx
  simp only [List.mem_cons, List.not_mem_nil, or_false] at hx
  rcases hx with rfl | rfl | rfl
  · exact ⟨by decide +kernel, rfl, fun _ => rfl, hp (by decide +kernel), by decide⟩
  · exact ⟨by decide +kernel, rfl, fun _ => rfl, hp (by decide +kernel), by decide⟩
  · exact ⟨by decide +kernel, rfl, fun _ => rfl, hp (by decide +kernel), by decide⟩

example : exportText [(.assign (cs!"A") (.plain (cs!"1")), cs!"A=1"), (.assign (cs!"B") (.plain (cs!"2")), cs!"B=2"),
      (.arg (.plain (cs!"C")), cs!"C")] = cs!" export A=1 B=2 C" ∧
    (demo [cs!" export A=1 B=2 C"]).env.get (cs!"B") = some (cs!"2") ∧
    (demo [cs!" export A=1 B=2 C"]).env = (demo [cs!"export A=1", cs!"export B=2", cs!"export C"]).env := by
  decide +kernel

end Rsh
