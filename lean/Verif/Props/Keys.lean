import Verif.Model.Keys
import Verif.Props.Interleave

/-!
# Property C143: the interrupt key while signals are held back
-/

namespace Rsh

open Spec Interleave

namespace Interleave

theorem keyGo_key {r : WRes} {k : KConf} (h : (k.key && !k.keyOff) = true) : keyStep (.go r) k =
    (.other, some { conf := { k.conf with masked := false, calls := .leaving k.conf.masked :: k.conf.calls },
                    keyOff := false, key := false }) := by
  show keyGo r k = _
  unfold keyGo
  rw [if_pos h]

theorem keyGo_go {r : WRes} {k : KConf} (h : ¬ (k.key && !k.keyOff) = true) : keyStep (.go r) k =
    ((goStep r k.conf).1, (goStep r k.conf).2.map fun c =>
      { k with conf := c, keyOff := keyOffAfter k.keyOff k.conf.calls (goStep r k.conf).1 }) := by
  show keyGo r k = _
  unfold keyGo
  rw [if_neg h]

theorem keyStep_inv {b : Bool} {k : KConf} (h : Inv b k.conf) (ch : KChoice)
    (hd : ∀ pid, (keyStep ch k).1 = .reaped pid → b = false) :
    ∃ k', (keyStep ch k).2 = some k' ∧ Inv (next b (keyStep ch k).1) k'.conf := by
  cases ch with
  | child => exact ⟨_, rfl, by cases b <;> exact h⟩
  | key => exact ⟨_, rfl, by cases b <;> exact h⟩
  | go r =>
    by_cases hk : (k.key && !k.keyOff) = true
    · rw [keyGo_key hk]
      exact ⟨_, rfl, inv_push h (.leaving k.conf.masked) rfl false k.conf.pending⟩
    · rw [keyGo_go hk] at hd ⊢
      obtain ⟨c', h1, h2⟩ := goStep_inv h r hd
      refine ⟨{ k with conf := c', keyOff := keyOffAfter k.keyOff k.conf.calls (goStep r k.conf).1 }, ?_, h2⟩
      show (goStep r k.conf).2.map _ = _
      rw [h1]
      rfl

theorem runKeys_inv (chs : List KChoice) : ∀ {b : Bool} {k : KConf}, Inv b k.conf →
    Undisturbed b (runKeys chs k).1 = true → (runKeys chs k).2 ≠ none := by
  induction chs with
  | nil => intro b k _ _; simp [runKeys]
  | cons ch chs ih =>
    intro b k h hu
    rcases hs : keyStep ch k with ⟨d, o⟩
    have key := keyStep_inv h ch
    rw [hs] at key
    have hd : ∀ pid, d = .reaped pid → b = false := by
      intro pid hd
      subst hd
      simp only [runKeys, hs] at hu
      cases o <;> · rw [undisturbed_cons] at hu; simp at hu; exact hu.1
    obtain ⟨c', ho, hi⟩ := key hd
    simp only at ho hi
    subst ho
    simp only [runKeys, hs] at hu ⊢
    rw [undisturbed_cons] at hu
    simp only [Bool.and_eq_true] at hu
    exact ih hi hu.2

theorem keyStep_excl {k k' : KConf} (h : Excl k.conf) {ch : KChoice} (hs : (keyStep ch k).2 = some k') : Excl k'.conf := by
  cases ch with
  | child => cases hs; exact h
  | key => cases hs; exact h
  | go r =>
    by_cases hk : (k.key && !k.keyOff) = true
    · rw [keyGo_key hk] at hs
      cases hs
      exact ⟨h.1, by simpa using h.2⟩
    · rw [keyGo_go hk] at hs
      replace hs : (goStep r k.conf).2.map _ = some k' := hs
      obtain ⟨c', h1, h2⟩ := Option.map_eq_some_iff.1 hs
      subst h2
      exact goStep_excl h h1

theorem keyStep_reaped {k : KConf} {ch : KChoice} {pid : Int} (hl : k.conf.loan = .excl)
    (h : (keyStep ch k).1 = .reaped pid) : (keyStep ch k).2 = none := by
  cases ch with
  | child => cases h
  | key => cases h
  | go r =>
    by_cases hk : (k.key && !k.keyOff) = true
    · rw [keyGo_key hk] at h; cases h
    · rw [keyGo_go hk] at h ⊢
      show (goStep r k.conf).2.map _ = none
      rw [goStep_reaped hl h]
      rfl

theorem runKeys_crash (chs : List KChoice) : ∀ {b : Bool} {k : KConf}, Inv b k.conf → Excl k.conf →
    Undisturbed b (runKeys chs k).1 = false → (runKeys chs k).2 = none := by
  induction chs with
  | nil => intro b k _ _ h; simp [runKeys, Undisturbed] at h
  | cons ch chs ih =>
    intro b k h he hu
    rcases hs : keyStep ch k with ⟨d, o⟩
    by_cases hd : ∀ pid, d = .reaped pid → b = false
    · have key := keyStep_inv h ch
      rw [hs] at key
      obtain ⟨c', ho, hi⟩ := key hd
      simp only at ho hi
      subst ho
      have he' : Excl c'.conf := keyStep_excl he (ch := ch) (by rw [hs])
      simp only [runKeys, hs] at hu ⊢
      rw [undisturbed_cons] at hu
      refine ih hi he' ?_
      cases d <;> simp_all
    · have ⟨pid, hb⟩ : ∃ pid, d = .reaped pid ∧ b = true := by
        simpa using hd
      obtain ⟨hb1, hb2⟩ := hb
      subst hb1 hb2
      have hl : k.conf.loan = .excl := by
        have h1 := h.1
        have h2 := he.1
        cases hcl : k.conf.loan <;> simp_all
      have := keyStep_reaped (k := k) (ch := ch) (pid := pid) hl (by rw [hs])
      rw [hs] at this
      simp only at this
      subst this
      simp [runKeys, hs]

/-- Choices without the interrupt key. -/
def plainChoice : KChoice → Option Choice
  | .child => some .child
  | .key => none
  | .go r => some (.go r)

theorem runKeys_plain (chs : List KChoice) : ∀ {k : KConf}, k.key = false → .key ∉ chs →
    (runKeys chs k).1 = (runConf (chs.filterMap plainChoice) k.conf).1 := by
  induction chs with
  | nil => intro k _ _; rfl
  | cons ch chs ih =>
    intro k hk hn
    have hn' : .key ∉ chs := fun h => hn (List.mem_cons_of_mem _ h)
    cases ch with
    | child =>
      show .signal :: (runKeys chs { k with conf := { k.conf with pending := true } }).1 = _
      rw [ih (k := { k with conf := { k.conf with pending := true } }) hk hn']
      rfl
    | key => exact absurd List.mem_cons_self hn
    | go r =>
      have e1 : keyStep (.go r) k = ((goStep r k.conf).1, (goStep r k.conf).2.map fun c =>
          { k with conf := c, keyOff := keyOffAfter k.keyOff k.conf.calls (goStep r k.conf).1 }) := keyGo_go (by simp [hk])
      unfold runKeys
      rw [e1]
      show _ = (runConf (.go r :: chs.filterMap plainChoice) k.conf).1
      unfold runConf
      show _ = (match goStep r k.conf with
        | (d, none) => ([d], none)
        | (d, some c') => (d :: (runConf (chs.filterMap plainChoice) c').1, (runConf (chs.filterMap plainChoice) c').2)).1
      rcases hg : goStep r k.conf with ⟨d, _ | c'⟩
      · rfl
      · simp only [Option.map_some]
        rw [ih (k := { k with conf := c', keyOff := keyOffAfter k.keyOff k.conf.calls d }) hk hn']

end Interleave

/-- **C143**, the part that holds: as long as nobody presses the interrupt key, the handler of SIGCHLD never starts while
signals are held back. -/
theorem C143_shielded_partial (jc : JobControl) (ops : List Op) (chs : List KChoice) (hk : .key ∉ chs) :
    Shielded false (runKeys chs (startKeys jc ops)).1 = true := by
  rw [runKeys_plain chs rfl hk]
  exact C87_shielded jc ops _

/-- **C143** is false, whatever the shell is doing: if a child has changed its state while signals are held back, and the
interrupt key is pressed, the handler of SIGCHLD starts at once. -/
theorem C143_lets_in (k : KConf) (hp : k.conf.pending = true) (ho : k.keyOff = false) (r r' : WRes) :
    (runKeys [.key, .go r, .go r'] k).1 = [.signal, .other, .handler] := by
  obtain ⟨⟨jc, loan, masked, pending, calls⟩, keyOff, key⟩ := k
  simp only at hp ho
  subst hp ho
  rfl

/-- **C143** is false: an access between `interrupts_off` and `interrupts_on` is interrupted, and the shell crashes if a
child has ended; the same in the midst of `delete_job`. -/
theorem C143_counterexample (jc : JobControl) (id : Nat) (pid code : Int) (r : WRes) :
    runKeys [.go r, .go r, .child, .key, .go r, .go r, .go (.st (.exited pid code))] (startKeys jc [.off, .write]) =
      ([.mask, .borrow true, .signal, .signal, .other, .handler, .reaped pid], none) ∧
    runKeys [.go r, .go r, .go r, .child, .key, .go r, .go r, .go (.st (.exited pid code))] (startKeys jc [.delete id]) =
      ([.other, .mask, .borrow true, .signal, .signal, .other, .handler, .reaped pid], none) ∧
    Shielded false [.mask, .borrow true, .signal, .signal, .other, .handler, .reaped pid] = false :=
  ⟨rfl, rfl, rfl⟩

/-- **C143** and C87: with the interrupt key, too, it is only a child that is reaped during an access that crashes the shell;
for programs that change the data this is exact. -/
theorem C143_exact (jc : JobControl) (ops : List Op) (hr : NoRead ops) (chs : List KChoice) :
    (runKeys chs (startKeys jc ops)).2 = none ↔ Undisturbed false (runKeys chs (startKeys jc ops)).1 = false := by
  constructor
  · intro h
    cases hu : Undisturbed false (runKeys chs (startKeys jc ops)).1 with
    | false => rfl
    | true => exact absurd h (runKeys_inv chs (b := false) ⟨rfl, by simp [startKeys, startConf, idle]⟩ hu)
  · exact runKeys_crash chs (b := false) ⟨rfl, by simp [startKeys, startConf, idle]⟩ ⟨by simp [startKeys, startConf], by
      intro t ht
      simp only [startKeys, startConf, List.mem_singleton, Call1.main.injEq] at ht
      subst ht
      exact hr⟩

/-- Pressing the key when no child has changed its state is harmless, and the program goes on. -/
example :
    let run := runKeys ([.go .err, .go .err, .key] ++ List.replicate 10 (.go .err)) (startKeys (oneJob 1 7) [.off, .write, .on])
    Undisturbed false run.1 = true ∧ run.2.map (fun k => k.conf.calls) = some [] ∧
      run.2.map (fun k => k.conf.masked) = some false := by
  decide +kernel

/-- A reachable configuration as in `C143_lets_in`. -/
example : (runKeys [.go .err, .child] (startKeys (oneJob 1 7) [.off, .write, .on])).2.map
    (fun k => (k.conf.pending, k.keyOff, k.conf.masked)) = some (true, false, true) := by
  decide +kernel

end Rsh
