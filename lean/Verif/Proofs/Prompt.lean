import Verif.Proofs.Start
import Verif.Spec.Prompt

/-!
# The demo session is a session
-/

namespace Rsh

open Spec

theorem outcome_ok {o : Out α} (h : outcome o = .ok) : ∃ a, o = .ok a := by
  cases o with
  | ok a => exact ⟨a, rfl⟩
  | _ => simp [outcome] at h

theorem session_atPrompt {w : World} {s s' : Sh} (hs : AtPrompt w s) (ls : List Str)
    (h : session w ls s = (.ok (), s')) : AtPrompt w s' := by
  induction ls generalizing s with
  | nil => cases h; exact hs
  | cons l ls ih =>
    unfold session at h
    obtain ⟨a, s1, h1, h2⟩ := bind_ok_iff.1 h
    exact ih (.line hs h1) h2

theorem atPrompt_ok {lines : List Str} {waits : List WRes} {files : AMap Str}
    (h : promptOk lines waits files = true) : AtPrompt (demoWorld files) (atPrompt lines waits files) := by
  unfold promptOk at h
  unfold atPrompt
  obtain ⟨a, ha⟩ := outcome_ok (of_decide_eq_true h)
  obtain ⟨b, s1, h1, h2⟩ := bind_ok_iff.1 (Prod.ext ha rfl)
  exact session_atPrompt (.start h1) lines h2

theorem demo_resources (files : AMap Str) : Resources (demoWorld files) :=
  ⟨fun _ => rfl, fun _ => by simp [demoWorld]⟩

/-- A name that leads to a program of `/bin`. -/
theorem demo_runnable {files : AMap Str} {s : Sh} {name : Str} (hp : pathOf s = some (cs!"/bin"))
    (hn : endsWith (cs!"nope") (cs!"/bin/" ++ name) = false) (hz : '\x00' ∉ name) (tr : List Event) :
    Runnable (demoWorld files) s tr name (cs!"/bin/" ++ name) where
  path := ⟨_, hp, [], cs!"/bin", [], lists_iff.2 (by decide), rfl, by
    show (startsWith (cs!"/bin/") (cs!"/bin/" ++ name) && !endsWith (cs!"nope") (cs!"/bin/" ++ name)) = true
    rw [hn]
    rfl, by simp⟩
  exec := rfl
  nul := by
    show '\x00' ∉ '/' :: 'b' :: 'i' :: 'n' :: '/' :: name
    simp [hz]

end Rsh
