import Verif.Proofs.Str
import Verif.Spec.Interleave

/-!
# Properties C54, C87: a signal in the middle of an access to the shell's data
-/

namespace Rsh

open Spec

namespace Interleave

/-- A call that does not hold the shell's data. -/
def idle : Call1 → Bool
  | .main _ | .del _ .start | .del _ .masked | .handler _ | .leaving _ | .waiting => true
  | _ => false

/-- A call of the handler. -/
def inHandler : Call1 → Bool
  | .handler _ | .leaving _ => true
  | _ => false

/-- The loan is held by exactly one call, or by none. -/
def Inv : Bool → Conf → Prop
  | false, c => c.loan = .free ∧ ∀ x ∈ c.calls, idle x = true
  | true, c => c.loan ≠ .free ∧ ∃ hs f rest, c.calls = hs ++ f :: rest ∧
      (∀ x ∈ hs, inHandler x = true) ∧ idle f = false ∧ ∀ x ∈ rest, idle x = true

/-- Whether the data is borrowed after a step. -/
def next (b : Bool) : Did → Bool
  | .borrow _ => true
  | .release => false
  | _ => b

theorem idle_of_inHandler {x : Call1} (h : inHandler x = true) : idle x = true := by
  cases x <;> simp_all [idle, inHandler]

theorem reapStep_free {pid : Int} {st : WStatus} {c : Conf} {saved : Bool} {rest : List Call1}
    (hl : c.loan = .free) (hr : ∀ x ∈ rest, idle x = true) :
    ∃ c', reapStep pid st c saved rest = some c' ∧ Inv false c' := by
  unfold reapStep
  rw [if_neg (by rw [hl]; decide)]
  split
  · exact ⟨_, rfl, hl, by simpa [idle] using hr⟩
  · split
    · exact ⟨_, rfl, hl, by simpa [idle] using hr⟩
    · split
      · exact ⟨_, rfl, hl, by simpa [idle] using hr⟩
      · exact ⟨_, rfl, hl, by simpa [idle] using hr⟩

theorem inv_push {b : Bool} {c : Conf} (h : Inv b c) (x : Call1) (hx : inHandler x = true) (m p : Bool) :
    Inv b { c with masked := m, pending := p, calls := x :: c.calls } := by
  cases b with
  | false => exact ⟨h.1, by simpa [idle_of_inHandler hx] using h.2⟩
  | true =>
    obtain ⟨hl, hs, f, rest, hc, h1, h2, h3⟩ := h
    exact ⟨hl, x :: hs, f, rest, by simp [hc], by simpa [hx] using h1, h2, h3⟩

theorem goStep_inv {b : Bool} {c : Conf} (h : Inv b c) (r : WRes)
    (hd : ∀ pid, (goStep r c).1 = .reaped pid → b = false) :
    ∃ c', (goStep r c).2 = some c' ∧ Inv (next b (goStep r c).1) c' := by
  obtain ⟨jc, loan, masked, pending, calls⟩ := c
  unfold goStep at hd ⊢
  by_cases hp : (pending && !masked) = true
  · rw [if_pos hp]
    exact ⟨_, rfl, inv_push h (.handler masked) rfl true false⟩
  rw [if_neg hp] at hd ⊢
  cases b with
  | false =>
    obtain ⟨hl, hc⟩ := h
    simp only at hl hc hd ⊢
    subst hl
    cases calls with
    | nil => exact ⟨_, rfl, rfl, hc⟩
    | cons x rest =>
      have hx := hc x (by simp)
      have hr : ∀ y ∈ rest, idle y = true := fun y hy => hc y (by simp [hy])
      cases x with
      | main todo =>
        cases todo with
        | nil => exact ⟨_, rfl, rfl, hr⟩
        | cons op t =>
          cases op with
          | off => exact ⟨_, rfl, rfl, by simpa [idle] using hr⟩
          | on => exact ⟨_, rfl, rfl, by simpa [idle] using hr⟩
          | read => exact ⟨_, rfl, by simp, [], .access, .main t :: rest, rfl, by simp, rfl, by simpa [idle] using hr⟩
          | write => exact ⟨_, rfl, by simp, [], .access, .main t :: rest, rfl, by simp, rfl, by simpa [idle] using hr⟩
          | delete id => exact ⟨_, rfl, rfl, by simpa [idle] using hr⟩
      | access => simp [idle] at hx
      | del id pc =>
        cases pc with
        | start => exact ⟨_, rfl, rfl, by simpa [idle] using hr⟩
        | masked => exact ⟨_, rfl, by simp, [], .del id .borrowed, rest, rfl, by simp, rfl, hr⟩
        | borrowed => simp [idle] at hx
        | deleted => simp [idle] at hx
        | unmasked => simp [idle] at hx
      | handler saved =>
        cases r with
        | st s =>
          cases s with
          | exited pid code => exact reapStep_free (c := ⟨jc, .free, masked, pending, .handler saved :: rest⟩) rfl hr
          | signaled pid sg co => exact reapStep_free (c := ⟨jc, .free, masked, pending, .handler saved :: rest⟩) rfl hr
          | stopped pid sg => exact reapStep_free (c := ⟨jc, .free, masked, pending, .handler saved :: rest⟩) rfl hr
          | other pid => exact ⟨_, rfl, rfl, by simpa [idle] using hr⟩
          | stillAlive => exact ⟨_, rfl, rfl, by simpa [idle] using hr⟩
        | err => exact ⟨_, rfl, rfl, by simpa [idle] using hr⟩
        | eintr => exact ⟨_, rfl, rfl, by simpa [idle] using hr⟩
      | leaving saved => exact ⟨_, rfl, rfl, hr⟩
      | waiting => exact ⟨_, rfl, rfl, hc⟩
  | true =>
    obtain ⟨hl, hs, f, rest, hc, h1, h2, h3⟩ := h
    simp only at hl hc hd ⊢
    subst hc
    cases hs with
    | nil =>
      cases f with
      | main todo => simp [idle] at h2
      | access => exact ⟨_, rfl, rfl, h3⟩
      | del id pc =>
        cases pc with
        | start => simp [idle] at h2
        | masked => simp [idle] at h2
        | borrowed => exact ⟨_, rfl, hl, [], .del id .deleted, rest, rfl, by simp, rfl, h3⟩
        | deleted => exact ⟨_, rfl, hl, [], .del id .unmasked, rest, rfl, by simp, rfl, h3⟩
        | unmasked => exact ⟨_, rfl, rfl, h3⟩
      | handler saved => simp [idle] at h2
      | leaving saved => simp [idle] at h2
      | waiting => simp [idle] at h2
    | cons x hs =>
      have hx := h1 x (by simp)
      have h1' : ∀ y ∈ hs, inHandler y = true := fun y hy => h1 y (by simp [hy])
      have quiet : ∀ (saved : Bool), Inv true ⟨jc, loan, masked, pending, .leaving saved :: (hs ++ f :: rest)⟩ :=
        fun saved => ⟨hl, .leaving saved :: hs, f, rest, rfl, by simpa [inHandler] using h1', h2, h3⟩
      cases x with
      | main todo => simp [inHandler] at hx
      | access => simp [inHandler] at hx
      | del id pc => simp [inHandler] at hx
      | handler saved =>
        cases r with
        | st s =>
          cases s with
          | exited pid code => exact absurd (hd pid rfl) (by simp)
          | signaled pid sg co => exact absurd (hd pid rfl) (by simp)
          | stopped pid sg => exact absurd (hd pid rfl) (by simp)
          | other pid => exact ⟨_, rfl, quiet saved⟩
          | stillAlive => exact ⟨_, rfl, quiet saved⟩
        | err => exact ⟨_, rfl, quiet saved⟩
        | eintr => exact ⟨_, rfl, quiet saved⟩
      | leaving saved => exact ⟨_, rfl, hl, hs, f, rest, rfl, h1', h2, h3⟩
      | waiting => simp [inHandler] at hx

theorem undisturbed_cons (b : Bool) (d : Did) (ds : List Did) :
    Undisturbed b (d :: ds) = ((match d with | .reaped _ => !b | _ => true) && Undisturbed (next b d) ds) := by
  cases d <;> cases b <;> simp [Undisturbed, next]

theorem confStep_inv {b : Bool} {c : Conf} (h : Inv b c) (ch : Choice)
    (hd : ∀ pid, (confStep ch c).1 = .reaped pid → b = false) :
    ∃ c', (confStep ch c).2 = some c' ∧ Inv (next b (confStep ch c).1) c' := by
  cases ch with
  | child =>
    refine ⟨_, rfl, ?_⟩
    cases b with
    | false => exact h
    | true => exact h
  | go r => exact goStep_inv h r hd

theorem run_inv (chs : List Choice) : ∀ {b : Bool} {c : Conf}, Inv b c →
    Undisturbed b (runConf chs c).1 = true → (runConf chs c).2 ≠ none := by
  induction chs with
  | nil => intro b c _ _; simp [runConf]
  | cons ch chs ih =>
    intro b c h hu
    rcases hs : confStep ch c with ⟨d, o⟩
    have key := confStep_inv h ch
    rw [hs] at key
    have hd : ∀ pid, d = .reaped pid → b = false := by
      intro pid hd
      subst hd
      simp only [runConf, hs] at hu
      cases o <;> · rw [undisturbed_cons] at hu; simp at hu; exact hu.1
    obtain ⟨c', ho, hi⟩ := key hd
    simp only at ho hi
    subst ho
    simp only [runConf, hs] at hu ⊢
    rw [undisturbed_cons] at hu
    simp only [Bool.and_eq_true] at hu
    exact ih hi hu.2

/-- Only exclusive borrows are to come, and there is no shared one. -/
def Excl (c : Conf) : Prop := c.loan ≠ .shared ∧ ∀ t, Call1.main t ∈ c.calls → NoRead t

theorem reapStep_excl {pid : Int} {st : WStatus} {c c' : Conf} {saved : Bool} {rest : List Call1}
    (hl : c.loan ≠ .shared) (hr : ∀ t, Call1.main t ∈ rest → NoRead t)
    (h : reapStep pid st c saved rest = some c') : Excl c' := by
  unfold reapStep at h
  split at h
  · simp at h
  split at h
  · cases h; exact ⟨hl, by simpa using hr⟩
  · split at h
    · cases h; exact ⟨hl, by simpa using hr⟩
    · split at h
      · cases h; exact ⟨hl, by simpa using hr⟩
      · cases h; exact ⟨hl, by simpa using hr⟩

theorem goStep_excl {c c' : Conf} (h : Excl c) {r : WRes} (hs : (goStep r c).2 = some c') : Excl c' := by
  obtain ⟨jc, loan, masked, pending, calls⟩ := c
  obtain ⟨hl, hm⟩ := h
  simp only at hl hm
  unfold goStep at hs
  by_cases hp : (pending && !masked) = true
  · rw [if_pos hp] at hs
    cases hs
    exact ⟨hl, by simpa using hm⟩
  rw [if_neg hp] at hs
  cases calls with
  | nil => cases hs; exact ⟨hl, by simp⟩
  | cons x rest =>
    have hr : ∀ t, Call1.main t ∈ rest → NoRead t := fun t ht => hm t (by simp [ht])
    cases x with
    | main todo =>
      have hx : NoRead todo := hm todo (by simp)
      cases todo with
      | nil => cases hs; exact ⟨hl, hr⟩
      | cons op t =>
        have ht : NoRead t := fun hh => hx (by simp [hh])
        have hmt : ∀ t', Call1.main t' ∈ Call1.main t :: rest → NoRead t' := by
          intro t' ht'
          rcases List.mem_cons.mp ht' with e | e
          · cases e; exact ht
          · exact hr _ e
        cases op with
        | off => cases hs; exact ⟨hl, hmt⟩
        | on => cases hs; exact ⟨hl, hmt⟩
        | read => exact absurd (List.mem_cons_self) hx
        | write =>
          simp only at hs
          split at hs
          · cases hs; exact ⟨by simp, by simpa using hmt⟩
          · simp at hs
        | delete id => cases hs; exact ⟨hl, by simpa using hmt⟩
    | access => cases hs; exact ⟨by simp, hr⟩
    | del id pc =>
      cases pc with
      | start => cases hs; exact ⟨hl, by simpa using hr⟩
      | masked =>
        simp only at hs
        split at hs
        · cases hs; exact ⟨by simp, by simpa using hr⟩
        · simp at hs
      | borrowed => cases hs; exact ⟨hl, by simpa using hr⟩
      | deleted => cases hs; exact ⟨hl, by simpa using hr⟩
      | unmasked => cases hs; exact ⟨by simp, hr⟩
    | handler saved =>
      cases r with
      | st s =>
        cases s with
        | exited pid code => exact reapStep_excl (c := ⟨jc, loan, masked, pending, _⟩) hl hr hs
        | signaled pid sg co => exact reapStep_excl (c := ⟨jc, loan, masked, pending, _⟩) hl hr hs
        | stopped pid sg => exact reapStep_excl (c := ⟨jc, loan, masked, pending, _⟩) hl hr hs
        | other pid => cases hs; exact ⟨hl, by simpa using hr⟩
        | stillAlive => cases hs; exact ⟨hl, by simpa using hr⟩
      | err => cases hs; exact ⟨hl, by simpa using hr⟩
      | eintr => cases hs; exact ⟨hl, by simpa using hr⟩
    | leaving saved => cases hs; exact ⟨hl, hr⟩
    | waiting => cases hs; exact ⟨hl, by simpa using hr⟩

/-- Reaping a child while the data is borrowed exclusively is a crash. -/
theorem goStep_reaped {c : Conf} {r : WRes} {pid : Int} (hl : c.loan = .excl)
    (h : (goStep r c).1 = .reaped pid) : (goStep r c).2 = none := by
  unfold goStep at h ⊢
  split at h
  · simp at h
  rename_i hp
  rw [if_neg hp]
  split at h <;> try simp at h
  split at h <;> try simp at h
  all_goals simp [reapStep, hl]

theorem run_crash (chs : List Choice) : ∀ {b : Bool} {c : Conf}, Inv b c → Excl c →
    Undisturbed b (runConf chs c).1 = false → (runConf chs c).2 = none := by
  induction chs with
  | nil => intro b c _ _ h; simp [runConf, Undisturbed] at h
  | cons ch chs ih =>
    intro b c h he hu
    rcases hs : confStep ch c with ⟨d, o⟩
    by_cases hd : ∀ pid, d = .reaped pid → b = false
    · have key := confStep_inv h ch
      rw [hs] at key
      obtain ⟨c', ho, hi⟩ := key hd
      simp only at ho hi
      subst ho
      have he' : Excl c' := by
        cases ch with
        | child => simp only [confStep] at hs; cases hs; exact he
        | go r => exact goStep_excl he (r := r) (by simp only [confStep] at hs; rw [hs])
      simp only [runConf, hs] at hu ⊢
      rw [undisturbed_cons] at hu
      refine ih hi he' ?_
      cases d <;> simp_all
    · have ⟨pid, hb⟩ : ∃ pid, d = .reaped pid ∧ b = true := by
        simpa using hd
      obtain ⟨hb1, hb2⟩ := hb
      subst hb1 hb2
      have hl : c.loan = .excl := by
        have h1 := h.1
        have h2 := he.1
        cases hcl : c.loan <;> simp_all
      cases ch with
      | child => simp [confStep] at hs
      | go r =>
        have := goStep_reaped (c := c) (r := r) (pid := pid) hl (by
          simp only [confStep] at hs; rw [hs])
        simp only [confStep] at hs
        rw [hs] at this
        simp only at this
        subst this
        simp [runConf, confStep, hs]

/-- The mask is on wherever the labels say so. -/
def Under : Bool → Conf → Prop
  | false, _ => True
  | true, c => c.masked = true ∧
      ((∃ t, c.calls = [.main t]) ∨ c.calls = [] ∨
        (∃ id rest, c.calls = .del id .masked :: rest ∨ c.calls = .del id .borrowed :: rest ∨
          c.calls = .del id .deleted :: rest) ∨ (∃ t, c.calls = [.access, .main t]) ∨
        ∃ id t, c.calls = [.del id .start, .main t])

/-- The program is at the bottom of the stack. -/
def base : List Call1 → Prop
  | [] => True
  | .main _ :: r => r = []
  | _ :: r => base r

theorem reapStep_base {pid : Int} {st : WStatus} {c c' : Conf} {saved : Bool} {rest : List Call1}
    (hr : base rest) (h : reapStep pid st c saved rest = some c') : base c'.calls := by
  unfold reapStep at h
  split at h
  · simp at h
  split at h
  · cases h; exact hr
  · split at h
    · cases h; exact hr
    · split at h
      · cases h; exact hr
      · cases h; exact hr

theorem goStep_base {c c' : Conf} (h : base c.calls) {r : WRes} (hs : (goStep r c).2 = some c') :
    base c'.calls := by
  obtain ⟨jc, loan, masked, pending, calls⟩ := c
  simp only at h
  unfold goStep at hs
  by_cases hp : (pending && !masked) = true
  · rw [if_pos hp] at hs
    cases hs
    exact h
  rw [if_neg hp] at hs
  cases calls with
  | nil => cases hs; exact h
  | cons x rest =>
    cases x with
    | main todo =>
      have hr : rest = [] := h
      subst hr
      cases todo with
      | nil => cases hs; trivial
      | cons op t =>
        cases op with
        | off => cases hs; rfl
        | on => cases hs; rfl
        | read => simp only at hs; split at hs <;> cases hs; rfl
        | write => simp only at hs; split at hs <;> cases hs; rfl
        | delete id => cases hs; rfl
    | access => cases hs; exact h
    | del id pc =>
      cases pc with
      | masked => simp only at hs; split at hs <;> cases hs; exact h
      | _ => cases hs; exact h
    | handler saved =>
      cases r with
      | st s =>
        cases s with
        | exited pid code => exact reapStep_base (c := ⟨jc, loan, masked, pending, .handler saved :: rest⟩) (saved := saved) (rest := rest) h hs
        | signaled pid sg co => exact reapStep_base (c := ⟨jc, loan, masked, pending, .handler saved :: rest⟩) (saved := saved) (rest := rest) h hs
        | stopped pid sg => exact reapStep_base (c := ⟨jc, loan, masked, pending, .handler saved :: rest⟩) (saved := saved) (rest := rest) h hs
        | other pid => cases hs; exact h
        | stillAlive => cases hs; exact h
      | err => cases hs; exact h
      | eintr => cases hs; exact h
    | leaving saved => cases hs; exact h
    | waiting => cases hs; exact h

/-- Whether a mask is in force after a step. -/
def nextMask (b : Bool) : Did → Bool
  | .mask => true
  | .unmask => false
  | _ => b

theorem goStep_under {b : Bool} {c c' : Conf} (hb : base c.calls) (h : Under b c) {r : WRes}
    (hs : (goStep r c).2 = some c') : Under (nextMask b (goStep r c).1) c' := by
  obtain ⟨jc, loan, masked, pending, calls⟩ := c
  simp only at hb
  cases b with
  | false =>
    cases hd : (goStep r ⟨jc, loan, masked, pending, calls⟩).1 <;> try exact True.intro
    unfold goStep at hs hd
    by_cases hp : (pending && !masked) = true
    · rw [if_pos hp] at hd; cases hd
    rw [if_neg hp] at hs hd
    cases calls with
    | nil => cases hd
    | cons x rest =>
      cases x with
      | main todo =>
        have hr : rest = [] := hb
        subst hr
        cases todo with
        | nil => cases hd
        | cons op t =>
          cases op with
          | off => cases hs; exact ⟨rfl, .inl ⟨t, rfl⟩⟩
          | _ => cases hd
      | access => cases hd
      | del id pc =>
        cases pc with
        | start => cases hs; exact ⟨rfl, .inr (.inr (.inl ⟨id, rest, .inl rfl⟩))⟩
        | _ => cases hd
      | handler saved =>
        cases r with
        | st s => cases s <;> cases hd
        | err => cases hd
        | eintr => cases hd
      | leaving saved => cases hd
      | waiting => cases hd
  | true =>
    obtain ⟨hm, h⟩ := h
    simp only at hm h
    subst hm
    have hp : ¬ (pending && !true) = true := by simp
    unfold goStep at hs ⊢
    rw [if_neg hp] at hs ⊢
    rcases h with ⟨t, rfl⟩ | rfl | ⟨id, rest, rfl | rfl | rfl⟩ | ⟨t, rfl⟩ | ⟨id, t, rfl⟩
    · cases t with
      | nil => cases hs; exact ⟨rfl, .inr (.inl rfl)⟩
      | cons op t =>
        cases op with
        | off => cases hs; exact ⟨rfl, .inl ⟨t, rfl⟩⟩
        | on => trivial
        | read =>
          simp only at hs ⊢
          split at hs <;> cases hs
          exact ⟨rfl, .inr (.inr (.inr (.inl ⟨t, rfl⟩)))⟩
        | write =>
          simp only at hs ⊢
          split at hs <;> cases hs
          exact ⟨rfl, .inr (.inr (.inr (.inl ⟨t, rfl⟩)))⟩
        | delete id => cases hs; exact ⟨rfl, .inr (.inr (.inr (.inr ⟨id, t, rfl⟩)))⟩
    · cases hs; exact ⟨rfl, .inr (.inl rfl)⟩
    · simp only at hs ⊢
      split at hs <;> cases hs
      exact ⟨rfl, .inr (.inr (.inl ⟨id, rest, .inr (.inl rfl)⟩))⟩
    · cases hs; exact ⟨rfl, .inr (.inr (.inl ⟨id, rest, .inr (.inr rfl)⟩))⟩
    · trivial
    · cases hs; exact ⟨rfl, .inl ⟨t, rfl⟩⟩
    · cases hs; exact ⟨rfl, .inr (.inr (.inl ⟨id, _, .inl rfl⟩))⟩

theorem shielded_cons (b : Bool) (d : Did) (ds : List Did) :
    Shielded b (d :: ds) = ((match d with | .handler => !b | _ => true) && Shielded (nextMask b d) ds) := by
  cases d <;> cases b <;> simp [Shielded, nextMask]

theorem run_shielded (chs : List Choice) : ∀ {b : Bool} {c : Conf}, base c.calls → Under b c →
    Shielded b (runConf chs c).1 = true := by
  induction chs with
  | nil => intro b c _ _; simp [runConf, Shielded]
  | cons ch chs ih =>
    intro b c hb h
    have hh : (match (confStep ch c).1 with | .handler => !b | _ => true) = true := by
      cases ch with
      | child => rfl
      | go r =>
        cases b with
        | false => cases (confStep (.go r) c).1 <;> rfl
        | true =>
          have hm := h.1
          have : (confStep (.go r) c).1 ≠ .handler := by
            simp only [confStep]
            unfold goStep
            rw [if_neg (by simp [hm])]
            split <;> try simp
            split <;> simp
          cases hd : (confStep (.go r) c).1 <;> simp_all
    rcases hs : confStep ch c with ⟨d, o⟩
    rw [hs] at hh
    cases o with
    | none =>
      simp only [runConf, hs]
      rw [shielded_cons, hh]
      rfl
    | some c' =>
      simp only [runConf, hs]
      rw [shielded_cons, hh]
      have hb' : base c'.calls := by
        cases ch with
        | child => simp only [confStep] at hs; cases hs; exact hb
        | go r => exact goStep_base hb (r := r) (by simp only [confStep] at hs; rw [hs])
      have hu' : Under (nextMask b d) c' := by
        cases ch with
        | child => simp only [confStep] at hs; cases hs; cases b <;> exact h
        | go r =>
          have := goStep_under hb h (r := r) (c' := c') (by simp only [confStep] at hs; rw [hs])
          simp only [confStep] at hs
          rwa [hs] at this
      simpa using ih hb' hu'

/-- What the calls of a program that no handler interrupts still have to do. -/
def left : List Call1 → List Op
  | [.main t] => t
  | [.access, .main t] => t
  | [.del id .start, .main t] => .delete id :: t
  | [.del id .masked, .main t] => .delete id :: t
  | [.del id .borrowed, .main t] => .delete id :: t
  | [.del _ .deleted, .main t] => t
  | [.del _ .unmasked, .main t] => t
  | _ => []

/-- The program or one access of it. -/
def plain (cs : List Call1) : Prop :=
  cs = [] ∨ (∃ t, cs = [.main t]) ∨ (∃ t, cs = [.access, .main t]) ∨ ∃ id pc t, cs = [.del id pc, .main t]

theorem goStep_plain {c c' : Conf} (h : plain c.calls) {r : WRes} (hh : (goStep r c).1 ≠ .handler)
    (hs : (goStep r c).2 = some c') :
    plain c'.calls ∧ deletions (left c'.calls) c'.jc = deletions (left c.calls) c.jc := by
  obtain ⟨jc, loan, masked, pending, calls⟩ := c
  simp only at h
  unfold goStep at hs hh
  by_cases hp : (pending && !masked) = true
  · rw [if_pos hp] at hh; exact absurd rfl hh
  rw [if_neg hp] at hs
  rcases h with rfl | ⟨t, rfl⟩ | ⟨t, rfl⟩ | ⟨id, pc, t, rfl⟩
  · cases hs; exact ⟨.inl rfl, rfl⟩
  · cases t with
    | nil => cases hs; exact ⟨.inl rfl, rfl⟩
    | cons op t =>
      cases op with
      | off => cases hs; exact ⟨.inr (.inl ⟨t, rfl⟩), rfl⟩
      | on => cases hs; exact ⟨.inr (.inl ⟨t, rfl⟩), rfl⟩
      | read =>
        simp only at hs
        split at hs <;> cases hs
        exact ⟨.inr (.inr (.inl ⟨t, rfl⟩)), rfl⟩
      | write =>
        simp only at hs
        split at hs <;> cases hs
        exact ⟨.inr (.inr (.inl ⟨t, rfl⟩)), rfl⟩
      | delete id => cases hs; exact ⟨.inr (.inr (.inr ⟨id, _, t, rfl⟩)), rfl⟩
  · cases hs; exact ⟨.inr (.inl ⟨t, rfl⟩), rfl⟩
  · cases pc with
    | start => cases hs; exact ⟨.inr (.inr (.inr ⟨id, _, t, rfl⟩)), rfl⟩
    | masked =>
      simp only at hs
      split at hs <;> cases hs
      exact ⟨.inr (.inr (.inr ⟨id, _, t, rfl⟩)), rfl⟩
    | borrowed => cases hs; exact ⟨.inr (.inr (.inr ⟨id, _, t, rfl⟩)), rfl⟩
    | deleted => cases hs; exact ⟨.inr (.inr (.inr ⟨id, _, t, rfl⟩)), rfl⟩
    | unmasked => cases hs; exact ⟨.inr (.inl ⟨t, rfl⟩), rfl⟩

theorem run_plain (chs : List Choice) : ∀ {c c' : Conf}, plain c.calls → Did.handler ∉ (runConf chs c).1 →
    (runConf chs c).2 = some c' →
    plain c'.calls ∧ deletions (left c'.calls) c'.jc = deletions (left c.calls) c.jc := by
  induction chs with
  | nil => intro c c' h _ hr; cases hr; exact ⟨h, rfl⟩
  | cons ch chs ih =>
    intro c c' h hn hr
    rcases hs : confStep ch c with ⟨d, o⟩
    cases o with
    | none => simp [runConf, hs] at hr
    | some c1 =>
      simp only [runConf, hs, List.mem_cons, not_or] at hn hr
      have key : plain c1.calls ∧ deletions (left c1.calls) c1.jc = deletions (left c.calls) c.jc := by
        cases ch with
        | child => simp only [confStep] at hs; cases hs; exact ⟨h, rfl⟩
        | go r =>
          simp only [confStep] at hs
          exact goStep_plain h (r := r) (by rw [hs]; exact fun e => hn.1 e.symm) (by rw [hs])
      obtain ⟨h1, h2⟩ := ih key.1 hn.2 hr
      exact ⟨h1, h2.trans key.2⟩

end Interleave

open Interleave

/-! ## C54 -/

/-- **C54** (the part that holds): whatever jobs there are, whatever jobs are deleted one after the
other and wherever signals arrive, the shell does not crash as long as the handler does not reap a
child between the moment `delete_job` has borrowed the shell's data and its return. -/
theorem C54_undisturbed_partial (jc : JobControl) (ids : List Nat) (chs : List Choice)
    (h : Undisturbed false (runConf chs (startConf jc (ids.map .delete))).1 = true) :
    (runConf chs (startConf jc (ids.map .delete))).2 ≠ none :=
  run_inv chs (b := false) ⟨rfl, by simp [startConf, idle]⟩ h

/-- **C54** is false exactly there: if the handler does reap a child in between, the shell crashes,
and nothing else crashes it. -/
theorem C54_exact (jc : JobControl) (ids : List Nat) (chs : List Choice) :
    (runConf chs (startConf jc (ids.map .delete))).2 = none ↔
      Undisturbed false (runConf chs (startConf jc (ids.map .delete))).1 = false := by
  constructor
  · intro h
    cases hu : Undisturbed false (runConf chs (startConf jc (ids.map .delete))).1 with
    | false => rfl
    | true => exact absurd h (C54_undisturbed_partial jc ids chs hu)
  · exact run_crash chs (b := false) ⟨rfl, by simp [startConf, idle]⟩ ⟨by simp [startConf], by
      intro t ht
      simp only [startConf, List.mem_singleton, Call1.main.injEq] at ht
      subst ht
      simp [NoRead]⟩

/-- **C54**, the update proper: the handler never runs between the masking and the unmasking. -/
theorem C54_shielded (jc : JobControl) (ids : List Nat) (chs : List Choice) :
    Shielded false (runConf chs (startConf jc (ids.map .delete))).1 = true :=
  run_shielded chs (b := false) (by simp [startConf, base]) trivial

/-- **C54**: a run to the end that the handler never interrupts deletes those jobs. -/
theorem C54_deletes (jc : JobControl) (ids : List Nat) (chs : List Choice) (c : Conf)
    (hn : Did.handler ∉ (runConf chs (startConf jc (ids.map .delete))).1)
    (hr : (runConf chs (startConf jc (ids.map .delete))).2 = some c) (he : c.calls = []) :
    c.jc = ids.foldl JobControl.deleteJob jc := by
  have h := (run_plain chs (.inr (.inl ⟨_, rfl⟩)) hn hr).2
  rw [he] at h
  have : ∀ (ids : List Nat) (jc : JobControl), deletions (ids.map .delete) jc = ids.foldl JobControl.deleteJob jc := by
    intro ids
    induction ids with
    | nil => intro jc; rfl
    | cons i t ih => intro jc; exact ih _
  simpa [left, deletions, startConf, this] using h

/-- **C54 is false**: for every job table, every job and every child: a `SIGCHLD` that arrives
during the deletion is delivered as soon as `delete_job` unmasks signals, which it does before it gives
the shell's data back; if the handler finds that a child has ended, the shell crashes. -/
theorem C54_counterexample (jc : JobControl) (id : Nat) (pid code : Int) (r : WRes) :
    runConf [.go r, .go r, .child, .go r, .go r, .go r, .go r, .go (.st (.exited pid code))]
        (startConf jc [.delete id]) =
      ([.other, .mask, .signal, .borrow true, .other, .unmask, .handler, .reaped pid], none) := rfl

/-- **C54**: there is no way out: once the signal is pending when the deletion is done, `delete_job`
only returns if the handler's `waitpid` has nothing to report. -/
theorem C54_inevitable (c : Conf) (id : Nat) (rest : List Call1) (hc : c.calls = .del id .deleted :: rest)
    (hm : c.masked = true) (hl : c.loan = .excl) (hp : c.pending = true) (r1 r2 r3 : WRes) :
    (runConf [.go r1, .go r2, .go r3] c).1.take 2 = [.unmask, .handler] ∧
    ((runConf [.go r1, .go r2, .go r3] c).2 = none ↔ ∃ pid, (runConf [.go r1, .go r2, .go r3] c).1.getLast? = some (.reaped pid)) := by
  obtain ⟨jc, loan, masked, pending, calls⟩ := c
  simp only at hc hm hl hp
  subst hc hm hl hp
  cases r3 with
  | st s => cases s <;> simp [runConf, confStep, goStep, reapStep]
  | err => simp [runConf, confStep, goStep]
  | eintr => simp [runConf, confStep, goStep]

/-- A background job of one process, number `id`. -/
def oneJob (id : Nat) (pid : Int) : JobControl :=
  (JobControl.createJob { nextId := id } [⟨pid, [], [], cs!"sleep", none⟩] true).2

/-- The hypotheses are met: a signal before the deletion and one with nothing to report during it. -/
example :
    let run := runConf (.child :: List.replicate 11 (.go (.st (.exited 7 0))) ++ [.child] ++ List.replicate 11 (.go .err))
      (startConf (oneJob 1 7) [.delete 3])
    Undisturbed false run.1 = true ∧ run.2.map (fun c => (c.calls, c.jc.table)) = some ([], []) := by
  decide +kernel

/-- And the crash. -/
example : Undisturbed false
    (runConf [.go .err, .go .err, .child, .go .err, .go .err, .go .err, .go .err, .go (.st (.exited 7 0))]
      (startConf (oneJob 1 7) [.delete 1])).1 = false := by
  decide +kernel

/-! ## C87 -/

namespace Interleave

theorem goStep_noExcl {c : Conf} (hl : c.loan ≠ .excl) {r : WRes} (hd : (goStep r c).1 ≠ .borrow true) :
    ∃ c', (goStep r c).2 = some c' ∧ c'.loan ≠ .excl := by
  obtain ⟨jc, loan, masked, pending, calls⟩ := c
  simp only at hl
  have reap : ∀ pid st saved rest cs,
      ∃ c', reapStep pid st ⟨jc, loan, masked, pending, cs⟩ saved rest = some c' ∧ c'.loan ≠ .excl := by
    intro pid st saved rest cs
    unfold reapStep
    rw [if_neg hl]
    split
    · exact ⟨_, rfl, hl⟩
    · split
      · exact ⟨_, rfl, hl⟩
      · split <;> exact ⟨_, rfl, hl⟩
  unfold goStep at hd ⊢
  by_cases hp : (pending && !masked) = true
  · rw [if_pos hp]; exact ⟨_, rfl, hl⟩
  rw [if_neg hp] at hd ⊢
  cases calls with
  | nil => exact ⟨_, rfl, hl⟩
  | cons x rest =>
    cases x with
    | main todo =>
      cases todo with
      | nil => exact ⟨_, rfl, hl⟩
      | cons op t =>
        cases op with
        | read => simp only; rw [if_neg hl]; exact ⟨_, rfl, by simp⟩
        | write => exact absurd rfl hd
        | _ => exact ⟨_, rfl, hl⟩
    | access => exact ⟨_, rfl, by simp⟩
    | del id pc =>
      cases pc with
      | masked => exact absurd rfl hd
      | unmasked => exact ⟨_, rfl, by simp⟩
      | _ => exact ⟨_, rfl, hl⟩
    | handler saved =>
      cases r with
      | st s =>
        cases s with
        | exited pid code => exact reap _ _ _ _ _
        | signaled pid sg co => exact reap _ _ _ _ _
        | stopped pid sg => exact reap _ _ _ _ _
        | other pid => exact ⟨_, rfl, hl⟩
        | stillAlive => exact ⟨_, rfl, hl⟩
      | err => exact ⟨_, rfl, hl⟩
      | eintr => exact ⟨_, rfl, hl⟩
    | leaving saved => exact ⟨_, rfl, hl⟩
    | waiting => exact ⟨_, rfl, hl⟩

theorem run_noExcl (chs : List Choice) : ∀ {c : Conf}, c.loan ≠ .excl → Did.borrow true ∉ (runConf chs c).1 →
    (runConf chs c).2 ≠ none := by
  induction chs with
  | nil => intro c _ _; simp [runConf]
  | cons ch chs ih =>
    intro c hl hn
    have key : ∃ c', (confStep ch c).2 = some c' ∧ c'.loan ≠ .excl := by
      cases ch with
      | child => exact ⟨_, rfl, hl⟩
      | go r =>
        refine goStep_noExcl hl (r := r) fun e => hn ?_
        simp only [runConf, confStep]
        rcases hg : goStep r c with ⟨d, o⟩
        rw [hg] at e
        simp only at e
        subst e
        cases o <;> simp
    obtain ⟨c', h1, h2⟩ := key
    rcases hs : confStep ch c with ⟨d, o⟩
    rw [hs] at h1
    simp only at h1
    subst h1
    simp only [runConf, hs, List.mem_cons, not_or] at hn ⊢
    exact ih h2 hn.2

/-- Only the accesses of a reader are in progress, and there are no background jobs. -/
def Reading (c : Conf) : Prop :=
  (∀ p ∈ c.jc.table, p.2.background = false) ∧
  ∀ x ∈ c.calls, (∀ id pc, x ≠ .del id pc) ∧ ∀ t, x = .main t → ∀ o ∈ t, o = .off ∨ o = .on ∨ o = .read

theorem Reading.reap {c : Conf} (h : Reading c) {pid : Int} {st : WStatus} {saved : Bool} {rest : List Call1}
    (hr : ∀ x ∈ rest, (∀ id pc, x ≠ .del id pc) ∧ ∀ t, x = .main t → ∀ o ∈ t, o = .off ∨ o = .on ∨ o = .read) {c' : Conf}
    (e : reapStep pid st c saved rest = some c') : Reading c' := by
  have hl : ∀ x ∈ Call1.leaving saved :: rest,
      (∀ id pc, x ≠ .del id pc) ∧ ∀ t, x = .main t → ∀ o ∈ t, o = .off ∨ o = .on ∨ o = .read := by
    intro x hx
    rcases List.mem_cons.1 hx with rfl | hx
    · exact ⟨nofun, nofun⟩
    · exact hr x hx
  unfold reapStep at e
  split at e
  · cases e
  split at e
  · cases e
    exact ⟨h.1, hl⟩
  · next j hj =>
    have hb : j.background = false := by
      obtain ⟨id, -, hid⟩ := Option.bind_eq_some_iff.1 hj
      exact h.1 _ (lookup_mem hid)
    rw [if_pos hb] at e
    cases e
    refine ⟨fun p hp => ?_, hl⟩
    obtain ⟨q, hq, rfl⟩ := List.mem_map.1 hp
    split <;> exact h.1 q hq

theorem Reading.step {c : Conf} (h : Reading c) (r : WRes) :
    (goStep r c).1 ≠ .borrow true ∧ ∀ c', (goStep r c).2 = some c' → Reading c' := by
  obtain ⟨jc, loan, masked, pending, calls⟩ := c
  unfold goStep
  by_cases hp : (pending && !masked) = true
  · rw [if_pos hp]
    refine ⟨nofun, ?_⟩
    rintro _ ⟨⟩
    refine ⟨h.1, fun x hx => ?_⟩
    rcases List.mem_cons.1 hx with rfl | hx
    · exact ⟨nofun, nofun⟩
    · exact h.2 x hx
  rw [if_neg hp]
  cases calls with
  | nil => exact ⟨nofun, by rintro _ ⟨⟩; exact h⟩
  | cons x rest =>
    have hrest := fun y (hy : y ∈ rest) => h.2 y (List.mem_cons_of_mem _ hy)
    have hx := h.2 x List.mem_cons_self
    have tail : ∀ t, x = .main t → ∀ y ∈ Call1.main t.tail :: rest,
        (∀ id pc, y ≠ .del id pc) ∧ ∀ t, y = .main t → ∀ o ∈ t, o = .off ∨ o = .on ∨ o = .read := by
      intro t ht y hy
      rcases List.mem_cons.1 hy with rfl | hy
      · refine ⟨nofun, ?_⟩
        rintro _ ⟨⟩ o ho
        exact hx.2 t ht o (List.mem_of_mem_tail ho)
      · exact hrest y hy
    cases x with
    | main todo =>
      cases todo with
      | nil => exact ⟨nofun, by rintro _ ⟨⟩; exact ⟨h.1, hrest⟩⟩
      | cons op t =>
        have := tail _ rfl
        cases op with
        | off => exact ⟨nofun, by rintro _ ⟨⟩; exact ⟨h.1, this⟩⟩
        | on => exact ⟨nofun, by rintro _ ⟨⟩; exact ⟨h.1, this⟩⟩
        | read =>
          refine ⟨nofun, fun c' e => ?_⟩
          simp only at e
          split at e
          · cases e
          · cases e
            refine ⟨h.1, fun y hy => ?_⟩
            rcases List.mem_cons.1 hy with rfl | hy
            · exact ⟨nofun, nofun⟩
            · exact this y hy
        | write => simpa using hx.2 _ rfl .write List.mem_cons_self
        | delete id => simpa using hx.2 _ rfl (.delete id) List.mem_cons_self
    | access => exact ⟨nofun, by rintro _ ⟨⟩; exact ⟨h.1, hrest⟩⟩
    | del id pc => exact absurd rfl (hx.1 id pc)
    | handler saved =>
      have nothing : Reading ⟨jc, loan, masked, pending, .leaving saved :: rest⟩ := by
        refine ⟨h.1, fun y hy => ?_⟩
        rcases List.mem_cons.1 hy with rfl | hy
        · exact ⟨nofun, nofun⟩
        · exact hrest y hy
      cases r with
      | st s =>
        cases s with
        | exited pid code => exact ⟨nofun, fun c' e => h.reap hrest e⟩
        | signaled pid sg co => exact ⟨nofun, fun c' e => h.reap hrest e⟩
        | stopped pid sg => exact ⟨nofun, fun c' e => h.reap hrest e⟩
        | other pid => exact ⟨nofun, by rintro _ ⟨⟩; exact nothing⟩
        | stillAlive => exact ⟨nofun, by rintro _ ⟨⟩; exact nothing⟩
      | err => exact ⟨nofun, by rintro _ ⟨⟩; exact nothing⟩
      | eintr => exact ⟨nofun, by rintro _ ⟨⟩; exact nothing⟩
    | leaving saved => exact ⟨nofun, by rintro _ ⟨⟩; exact ⟨h.1, hrest⟩⟩
    | waiting => exact ⟨nofun, by rintro _ ⟨⟩; exact h⟩

theorem Reading.run (chs : List Choice) : ∀ {c : Conf}, Reading c → Did.borrow true ∉ (runConf chs c).1 := by
  induction chs with
  | nil => intro c _; simp [runConf]
  | cons ch chs ih =>
    intro c h
    have key : (confStep ch c).1 ≠ .borrow true ∧ ∀ c', (confStep ch c).2 = some c' → Reading c' := by
      cases ch with
      | child => exact ⟨nofun, by rintro _ ⟨⟩; exact h⟩
      | go r => exact h.step r
    rcases hs : confStep ch c with ⟨d, o⟩
    rw [hs] at key
    cases o with
    | none => simpa [runConf, hs] using Ne.symm key.1
    | some c' =>
      simp only [runConf, hs, List.mem_cons, not_or]
      exact ⟨Ne.symm key.1, ih (key.2 c' rfl)⟩

end Interleave

/-- **C87** (the part that holds): a program that accesses the shell's data in any order is not
crashed by signals as long as no child is reaped during an access. -/
theorem C87_undisturbed_partial (jc : JobControl) (ops : List Op) (chs : List Choice)
    (h : Undisturbed false (runConf chs (startConf jc ops)).1 = true) :
    (runConf chs (startConf jc ops)).2 ≠ none :=
  run_inv chs (b := false) ⟨rfl, by simp [startConf, idle]⟩ h

/-- **C87**: for programs that change the data this is exact: reaping a child during an access is a
crash. -/
theorem C87_exact (jc : JobControl) (ops : List Op) (hr : NoRead ops) (chs : List Choice) :
    (runConf chs (startConf jc ops)).2 = none ↔ Undisturbed false (runConf chs (startConf jc ops)).1 = false := by
  constructor
  · intro h
    cases hu : Undisturbed false (runConf chs (startConf jc ops)).1 with
    | false => rfl
    | true => exact absurd h (C87_undisturbed_partial jc ops chs hu)
  · exact run_crash chs (b := false) ⟨rfl, by simp [startConf, idle]⟩ ⟨by simp [startConf], by
      intro t ht
      simp only [startConf, List.mem_singleton, Call1.main.injEq] at ht
      subst ht
      exact hr⟩

/-- **C87**: reading is safe whatever the handler reaps, unless it removes a job. -/
theorem C87_reads_partial (jc : JobControl) (ops : List Op) (chs : List Choice)
    (h : Did.borrow true ∉ (runConf chs (startConf jc ops)).1) : (runConf chs (startConf jc ops)).2 ≠ none :=
  run_noExcl chs (by simp [startConf]) h

/-- **C87**: a program that only reads never has the data to itself, and is not crashed by signals, whatever children end
and whenever they do, if there are no background jobs. -/
theorem C87_readers_partial (jc : JobControl) (hj : ∀ p ∈ jc.table, p.2.background = false) (ops : List Op)
    (ho : ∀ o ∈ ops, o = .off ∨ o = .on ∨ o = .read) (chs : List Choice) :
    Did.borrow true ∉ (runConf chs (startConf jc ops)).1 ∧ (runConf chs (startConf jc ops)).2 ≠ none := by
  have h : Reading (startConf jc ops) := by
    refine ⟨hj, fun x hx => ?_⟩
    rw [List.mem_singleton.1 hx]
    refine ⟨nofun, ?_⟩
    rintro _ ⟨⟩
    exact ho
  exact ⟨h.run chs, C87_reads_partial jc ops chs (h.run chs)⟩

/-- What was done breaks the rules for shared data: a child is reaped (which looks the job up) while someone has the data
to themselves, or someone wants it to themselves while it is in use, or wants to read it while someone has it to
themselves.  The first argument is how the data is in use. -/
def Spec.Clash : Loan → List Did → Bool
  | _, [] => false
  | l, .reaped _ :: ds => decide (l = .excl) || Clash l ds
  | l, .borrow true :: ds => decide (l ≠ .free) || Clash .excl ds
  | l, .borrow false :: ds => decide (l = .excl) || Clash .shared ds
  | _, .release :: ds => Clash .free ds
  | l, _ :: ds => Clash l ds

namespace Interleave

/-- How the data is in use after a step, and whether the step breaks the rules. -/
def usage (l : Loan) : Did → Loan × Bool
  | .reaped _ => (l, decide (l = .excl))
  | .borrow true => (.excl, decide (l ≠ .free))
  | .borrow false => (.shared, decide (l = .excl))
  | .release => (.free, false)
  | _ => (l, false)

theorem clash_cons (l : Loan) (d : Did) (ds : List Did) :
    Clash l (d :: ds) = ((usage l d).2 || Clash (usage l d).1 ds) := by
  cases d with
  | borrow b => cases b <;> rfl
  | _ => simp [Clash, usage]

theorem reap_usage (pid : Int) (st : WStatus) (c : Conf) (saved : Bool) (rest : List Call1) :
    match reapStep pid st c saved rest with
    | none => c.loan = .excl
    | some c' => c.loan ≠ .excl ∧ c'.loan = c.loan := by
  unfold reapStep
  by_cases h : c.loan = .excl
  · rw [if_pos h]; exact h
  · rw [if_neg h]
    cases c.jc.getJobPid pid with
    | none => exact ⟨h, rfl⟩
    | some j =>
      cases h1 : j.background <;> by_cases h2 : j.processes.length = 1 <;> simp [h1, h2, h]

theorem goStep_usage (r : WRes) (c : Conf) :
    match (goStep r c).2 with
    | none => (usage c.loan (goStep r c).1).2 = true
    | some c' => (usage c.loan (goStep r c).1).2 = false ∧ c'.loan = (usage c.loan (goStep r c).1).1 := by
  have reap : ∀ pid st saved rest, match reapStep pid st c saved rest with
      | none => (usage c.loan (.reaped pid)).2 = true
      | some c' => (usage c.loan (.reaped pid)).2 = false ∧ c'.loan = (usage c.loan (.reaped pid)).1 := by
    intro pid st saved rest
    have := reap_usage pid st c saved rest
    split <;> next e =>
      rw [e] at this
      simpa [usage] using this
  unfold goStep
  by_cases hp : (c.pending && !c.masked) = true
  · rw [if_pos hp]; exact ⟨rfl, rfl⟩
  rw [if_neg hp]
  cases c.calls with
  | nil => exact ⟨rfl, rfl⟩
  | cons x rest =>
    cases x with
    | main todo =>
      cases todo with
      | nil => exact ⟨rfl, rfl⟩
      | cons op t =>
        cases op with
        | read =>
          simp only
          by_cases h : c.loan = .excl
          · rw [if_pos h]; simp [usage, h]
          · rw [if_neg h]; simp [usage, h]
        | write =>
          simp only
          by_cases h : c.loan = .free
          · rw [if_pos h]; simp [usage, h]
          · rw [if_neg h]; simp [usage, h]
        | _ => exact ⟨rfl, rfl⟩
    | access => exact ⟨rfl, rfl⟩
    | del id pc =>
      cases pc with
      | masked =>
        simp only
        by_cases h : c.loan = .free
        · rw [if_pos h]; simp [usage, h]
        · rw [if_neg h]; simp [usage, h]
      | _ => exact ⟨rfl, rfl⟩
    | handler saved =>
      cases r with
      | st s =>
        cases s with
        | exited pid code => exact reap _ _ _ _
        | signaled pid sg co => exact reap _ _ _ _
        | stopped pid sg => exact reap _ _ _ _
        | other pid => exact ⟨rfl, rfl⟩
        | stillAlive => exact ⟨rfl, rfl⟩
      | err => exact ⟨rfl, rfl⟩
      | eintr => exact ⟨rfl, rfl⟩
    | leaving saved => exact ⟨rfl, rfl⟩
    | waiting => exact ⟨rfl, rfl⟩

theorem run_clash (chs : List Choice) : ∀ {c : Conf},
    (runConf chs c).2 = none ↔ Clash c.loan (runConf chs c).1 = true := by
  induction chs with
  | nil => intro c; simp [runConf, Clash]
  | cons ch chs ih =>
    intro c
    have key : match (confStep ch c).2 with
        | none => (usage c.loan (confStep ch c).1).2 = true
        | some c' => (usage c.loan (confStep ch c).1).2 = false ∧ c'.loan = (usage c.loan (confStep ch c).1).1 := by
      cases ch with
      | child => exact ⟨rfl, rfl⟩
      | go r => exact goStep_usage r c
    rcases hs : confStep ch c with ⟨d, o⟩
    rw [hs] at key
    cases o with
    | none =>
      simp only at key
      simp only [runConf, hs, clash_cons, key, Bool.true_or]
    | some c' =>
      simp only at key
      simp only [runConf, hs, clash_cons, key.1, Bool.false_or, ← key.2]
      exact ih

end Interleave

/-- **C87**, exactly: a program that accesses the shell's data in any order is crashed by signals if and only if what was
done breaks the rules for shared data. -/
theorem C87_when (jc : JobControl) (ops : List Op) (chs : List Choice) :
    (runConf chs (startConf jc ops)).2 = none ↔ Clash .free (runConf chs (startConf jc ops)).1 = true :=
  run_clash chs

/-- Both occur: a child is reaped between two accesses; it is reaped during one; a background job is removed during a
lookup. -/
example :
    Clash .free (runConf ([.go .err, .go .err, .child] ++ List.replicate 10 (.go (.st (.exited 7 0))))
      (startConf (oneJob 1 7) [.write, .read])).1 = false ∧
    Clash .free (runConf [.go .err, .child, .go .err, .go (.st (.exited 7 0))] (startConf (oneJob 1 7) [.write])).1 = true ∧
    Clash .free (runConf [.go .err, .child, .go .err, .go (.st (.exited 7 0)), .go .err, .go .err]
      (startConf (oneJob 1 7) [.read])).1 = true := by
  decide +kernel

/-- **C87**: an access between `interrupts_off` and `interrupts_on` is not interrupted by the end of a child (unless the
interrupt key is pressed: C143). -/
theorem C87_shielded (jc : JobControl) (ops : List Op) (chs : List Choice) :
    Shielded false (runConf chs (startConf jc ops)).1 = true :=
  run_shielded chs (b := false) (by simp [startConf, base]) trivial

/-- **C87 is false**: whatever child ends while the shell changes a variable or an alias, if the
handler reaps it the shell crashes. -/
theorem C87_counterexample (jc : JobControl) (pid code : Int) (r : WRes) :
    runConf [.go r, .child, .go r, .go (.st (.exited pid code))] (startConf jc [.write]) =
      ([.borrow true, .signal, .handler, .reaped pid], none) := rfl

/-- **C87 is false** even for reading: the end of a background job while the shell looks something
up. -/
theorem C87_counterexample_read :
    (runConf [.go .err, .child, .go .err, .go (.st (.exited 7 0)), .go .err, .go .err]
      (startConf (oneJob 1 7) [.read])).2 = none := by
  decide +kernel

/-- The hypotheses are met: a child reaped between two accesses, and one found during a lookup. -/
example :
    let run := runConf ([.go .err, .go .err, .child] ++ List.replicate 10 (.go (.st (.exited 7 0))))
      (startConf (oneJob 1 7) [.write, .read])
    Undisturbed false run.1 = true ∧ Did.reaped 7 ∈ run.1 ∧ run.2 ≠ none := by
  decide +kernel

example :
    let run := runConf ([.go .err, .child] ++ List.replicate 6 (.go (.st (.exited 8 0))))
      (startConf (oneJob 1 7) [.read])
    Undisturbed false run.1 = false ∧ Did.borrow true ∉ run.1 ∧ run.2 ≠ none := by
  decide +kernel

/-- The hypotheses of `C87_readers_partial` are met: the child of a foreground job is reaped during a lookup. -/
example :
    let jc := (oneJob 1 7).modJob 1 fun j => { j with background := false }
    (∀ p ∈ jc.table, p.2.background = false) ∧ jc.table ≠ [] ∧
    Did.reaped 7 ∈ (runConf [.go .err, .child, .go .err, .go (.st (.exited 7 0))] (startConf jc [.read, .off, .on])).1 := by
  decide +kernel

end Rsh
