import Verif.Model.Main

/-!
# Running computations of the shell
-/

namespace Rsh

theorem M.bind_def (m : M α) (f : α → M β) : (m >>= f) = M.bind m f := rfl

instance : LawfulMonad M := LawfulMonad.mk'
  (id_map := by
    intro α x; funext s
    show M.bind x _ s = x s
    unfold M.bind
    rcases h : x s with ⟨o, s'⟩
    cases o <;> rfl)
  (pure_bind := by intros; rfl)
  (bind_assoc := by
    intro α β γ x f g; funext s
    show M.bind (M.bind x f) g s = M.bind x (fun a => M.bind (f a) g) s
    unfold M.bind
    rcases h : x s with ⟨o, s'⟩
    cases o <;> rfl)
  (bind_pure_comp := by intros; rfl)

@[simp] theorem run_pure (a : α) (s : Sh) : (pure a : M α) s = (.ok a, s) := rfl
@[simp] theorem run_getS (s : Sh) : getS s = (.ok s, s) := rfl
@[simp] theorem run_modS (f : Sh → Sh) (s : Sh) : modS f s = (.ok (), f s) := rfl
@[simp] theorem run_throwE (e : Str) (s : Sh) : (throwE e : M α) s = (.err e, s) := rfl
@[simp] theorem run_panicM (k : PanicKind) (s : Sh) : (panicM k : M α) s = (.panic k, s) := rfl
@[simp] theorem run_exitM (c : Int) (s : Sh) : (exitM c : M α) s = (.exit c, s) := rfl
@[simp] theorem run_execM (i : ExecImage) (s : Sh) : (execM i : M α) s = (.execed i, s) := rfl
@[simp] theorem run_hangM (s : Sh) : (hangM : M α) s = (.hang, s) := rfl
@[simp] theorem run_deepM (s : Sh) : (deepM : M α) s = (.deep, s) := rfl

@[simp] theorem run_pure_bind (a : α) (f : α → M β) (s : Sh) : (pure a >>= f) s = f a s := rfl
@[simp] theorem run_getS_bind (f : Sh → M β) (s : Sh) : (getS >>= f) s = f s s := rfl
@[simp] theorem run_modS_bind (g : Sh → Sh) (f : Unit → M β) (s : Sh) :
    (modS g >>= f) s = f () (g s) := rfl
@[simp] theorem run_throwE_bind (e : Str) (f : α → M β) (s : Sh) :
    (throwE e >>= f) s = (.err e, s) := rfl
@[simp] theorem run_panicM_bind (k : PanicKind) (f : α → M β) (s : Sh) :
    (panicM k >>= f) s = (.panic k, s) := rfl
@[simp] theorem run_exitM_bind (c : Int) (f : α → M β) (s : Sh) :
    (exitM c >>= f) s = (.exit c, s) := rfl
@[simp] theorem run_execM_bind (i : ExecImage) (f : α → M β) (s : Sh) :
    (execM i >>= f) s = (.execed i, s) := rfl
@[simp] theorem run_hangM_bind (f : α → M β) (s : Sh) : (hangM >>= f) s = (.hang, s) := rfl
@[simp] theorem run_deepM_bind (f : α → M β) (s : Sh) : (deepM >>= f) s = (.deep, s) := rfl

@[simp] theorem unwrapM_some (k : PanicKind) (a : α) : unwrapM k (some a) = pure a := rfl
@[simp] theorem unwrapM_none (k : PanicKind) : (unwrapM k none : M α) = panicM k := rfl

theorem run_bind_ok {m : M α} {s s' : Sh} {a : α} (h : m s = (.ok a, s')) (f : α → M β) :
    (m >>= f) s = f a s' := by
  show M.bind m f s = _
  unfold M.bind; rw [h]

theorem run_bind_err {m : M α} {s s' : Sh} {e : Str} (h : m s = (.err e, s')) (f : α → M β) :
    (m >>= f) s = (.err e, s') := by
  show M.bind m f s = _
  unfold M.bind; rw [h]

theorem run_bind_panic {m : M α} {s s' : Sh} {k} (h : m s = (.panic k, s')) (f : α → M β) :
    (m >>= f) s = (.panic k, s') := by
  show M.bind m f s = _
  unfold M.bind; rw [h]

/-- The outcome of a sequence, by the outcome of its first part. -/
theorem run_bind (m : M α) (f : α → M β) (s : Sh) :
    (m >>= f) s = match m s with
      | (.ok a, s') => f a s'
      | (.err e, s') => (.err e, s')
      | (.panic k, s') => (.panic k, s')
      | (.exit c, s') => (.exit c, s')
      | (.execed i, s') => (.execed i, s')
      | (.hang, s') => (.hang, s')
      | (.deep, s') => (.deep, s') := rfl

/-- A sequence returns iff both parts do. -/
theorem bind_ok_iff {m : M α} {f : α → M β} {s s' : Sh} {b : β} :
    (m >>= f) s = (.ok b, s') ↔ ∃ a s1, m s = (.ok a, s1) ∧ f a s1 = (.ok b, s') := by
  rw [run_bind]
  rcases h : m s with ⟨o, s1⟩
  cases o with
  | ok a => exact ⟨fun h => ⟨a, s1, rfl, h⟩, fun ⟨_, _, e, h⟩ => by cases e; exact h⟩
  | _ => simp

theorem run_tryE (m : M α) (s : Sh) :
    tryE m s = match m s with
      | (.ok a, s') => (.ok (.ok a), s')
      | (.err e, s') => (.ok (.error e), s')
      | (.panic k, s') => (.panic k, s')
      | (.exit c, s') => (.exit c, s')
      | (.execed i, s') => (.execed i, s')
      | (.hang, s') => (.hang, s')
      | (.deep, s') => (.deep, s') := rfl

theorem run_tryE_ok {m : M α} {s s' : Sh} {a : α} (h : m s = (.ok a, s')) :
    tryE m s = (.ok (.ok a), s') := by rw [run_tryE, h]

theorem run_tryE_err {m : M α} {s s' : Sh} {e} (h : m s = (.err e, s')) :
    tryE m s = (.ok (.error e), s') := by rw [run_tryE, h]

end Rsh
