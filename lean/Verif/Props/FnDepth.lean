import Verif.Props.Fns

/-!
# Property C164: the depth given to the reference interpreter does not matter
-/

namespace Rsh

open Spec

/-- Whatever the first says, the second says too. -/
def Extends {α : Type} (a b : Option α) : Prop := ∀ x, a = some x → b = some x

theorem Extends.refl {α : Type} (a : Option α) : Extends a a := fun _ h => h

theorem Extends.bind {α β : Type} {a b : Option α} {f g : α → Option β} (h : Extends a b) (hf : ∀ x, Extends (f x) (g x)) :
    Extends (a.bind f) (b.bind g) := by
  intro y hy
  obtain ⟨x, hx, hy⟩ := Option.bind_eq_some_iff.1 hy
  exact Option.bind_eq_some_iff.2 ⟨x, h x hx, hf x y hy⟩

theorem Extends.map {α β : Type} {a b : Option α} (f : α → β) (h : Extends a b) : Extends (a.map f) (b.map f) := by
  intro y hy
  obtain ⟨x, hx, hy⟩ := Option.map_eq_some_iff.1 hy
  exact Option.map_eq_some_iff.2 ⟨x, h x hx, hy⟩

theorem calls_extends {body body' : List MiniChain → FnState → Option FnState}
    (hb : ∀ b σ, Extends (body b σ) (body' b σ)) (cs : List (List MiniChain × List Str)) :
    ∀ σ, Extends (runCalls body cs σ) (runCalls body' cs σ) := by
  induction cs with
  | nil => exact fun σ => .refl _
  | cons c cs ih =>
    intro σ
    unfold runCalls
    split
    · refine (hb _ _).bind fun τ => ?_
      split
      · exact .refl _
      · exact ih _
    · exact .refl _

theorem step_extends (u : FnWorld) {body body' : List MiniChain → FnState → Option FnState}
    (hb : ∀ b σ, Extends (body b σ) (body' b σ)) (σ : FnState) (t : MiniStep) :
    Extends (u.step body σ t) (u.step body' σ t) := by
  unfold FnWorld.step
  split
  · exact .refl _
  · cases t with
    | run c cs =>
      dsimp only
      split
      · exact (calls_extends hb _ _).map _
      · exact .refl _
    | full c cs =>
      dsimp only
      split
      · exact (calls_extends hb _ _).map _
      · exact .refl _
    | source d p args =>
      dsimp only
      split
      · split
        · exact .refl _
        · exact .refl _
        · exact (hb _ _).map _
      · exact .refl _
    | eval a as =>
      dsimp only
      split
      · exact .refl _
      · exact .refl _
      · exact (hb _ _).map _
    | _ => exact .refl _

theorem links_extends (u : FnWorld) {body body' : List MiniChain → FnState → Option FnState}
    (hb : ∀ b σ, Extends (body b σ) (body' b σ)) (ls : List (CondExec × MiniStep)) :
    ∀ σ, Extends (u.links body ls σ) (u.links body' ls σ) := by
  induction ls with
  | nil => exact fun σ => .refl _
  | cons l ls ih =>
    intro σ
    refine .bind ?_ ih
    unfold FnWorld.link
    cases l.1
    · dsimp only
      split
      · exact step_extends u hb _ _
      · exact .refl _
    · dsimp only
      split
      · exact .refl _
      · exact step_extends u hb _ _

theorem chain_extends (u : FnWorld) {body body' : List MiniChain → FnState → Option FnState}
    (hb : ∀ b σ, Extends (body b σ) (body' b σ)) (σ : FnState) (c : MiniChain) :
    Extends (u.chain body σ c) (u.chain body' σ c) :=
  .bind (step_extends u hb _ _) (links_extends u hb _)

theorem chains_extends (u : FnWorld) {body body' : List MiniChain → FnState → Option FnState}
    (hb : ∀ b σ, Extends (body b σ) (body' b σ)) (cs : List MiniChain) :
    ∀ σ, Extends (u.chains body cs σ) (u.chains body' cs σ) := by
  induction cs with
  | nil => exact fun σ => .refl _
  | cons c cs ih => exact fun σ => .bind (chain_extends u hb _ _) ih

theorem body_extends (u : FnWorld) (d : Nat) : ∀ e, d ≤ e → ∀ b σ, Extends (u.body d b σ) (u.body e b σ) := by
  induction d with
  | zero => exact fun e _ b σ x hx => nomatch hx
  | succ d ih =>
    intro e he b σ
    cases e with
    | zero => omega
    | succ e => exact chains_extends u (ih e (by omega)) b σ

theorem items_extends (u : FnWorld) {d e : Nat} (h : d ≤ e) (is : List FnItem) :
    ∀ σ, Extends (u.items d is σ) (u.items e is σ) := by
  induction is with
  | nil => exact fun σ => .refl _
  | cons i is ih =>
    intro σ
    refine .bind ?_ ih
    cases i with
    | chain c => exact chain_extends u (body_extends u d e h) _ _
    | define f c cs => exact .refl _

theorem session_extends (u : FnWorld) {d e : Nat} (h : d ≤ e) (ls : List FnLine) :
    ∀ σ, Extends (u.session d σ ls) (u.session e σ ls) := by
  induction ls with
  | nil => exact fun σ => .refl _
  | cons l ls ih =>
    intro σ
    unfold FnWorld.session
    split
    · exact .refl _
    · exact .bind (items_extends u h _ _) ih

/-- C164: what the reference says does not depend on how deep calls may be nested, if it is deep enough: two depths at
which it gets through a session give the same result, and if it gets through with one it does with every larger one. -/
theorem C164_depth (u : FnWorld) (σ : FnState) (ls : List FnLine) :
    (∀ d e τ τ', u.session d σ ls = some τ → u.session e σ ls = some τ' → τ' = τ) ∧
      ∀ d e τ, d ≤ e → u.session d σ ls = some τ → u.session e σ ls = some τ := by
  refine ⟨fun d e τ τ' h h' => ?_, fun d e τ h => session_extends u h ls σ τ⟩
  rcases Nat.le_total d e with hl | hl
  · have := session_extends u hl ls σ τ h
    rw [this] at h'
    exact (Option.some.inj h').symm
  · have := session_extends u hl ls σ τ' h'
    rw [this] at h
    exact Option.some.inj h

/-- The session of `fnLines` has a call within a call; at every depth from 2 on the reference says the same of it. -/
example : ∀ e, 2 ≤ e → (fnWorld.session e fnStart fnLines).map (·.ran) = (fnWorld.session 2 fnStart fnLines).map (·.ran) ∧
    (fnWorld.session e fnStart fnLines).isSome ∧ (fnWorld.session 1 fnStart fnLines).isNone := by
  intro e he
  have h : (fnWorld.session 2 fnStart fnLines).isSome = true := by decide
  obtain ⟨τ, hτ⟩ := Option.isSome_iff_exists.1 h
  rw [(C164_depth fnWorld fnStart fnLines).2 2 e τ he hτ, hτ]
  exact ⟨rfl, rfl, by decide⟩

end Rsh
