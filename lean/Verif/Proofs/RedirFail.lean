import Verif.Proofs.Redirect

/-!
# Redirections whose file cannot be opened
-/

namespace Rsh

open Spec

/-- The files of some redirections can be opened or not, whatever else happens after `tr0`. -/
def Spec.Openable (w : World) (tr0 : List Event) (good : Redir → Bool) (rs : List Redir) : Prop :=
  ∀ r ∈ rs, ∀ tr, w.openOk (tr ++ tr0) r.op r.file = good r

theorem Openable.after {w : World} {t : List Event} {good : Redir → Bool} {rs : List Redir}
    (h : Openable w t good rs) (l : List Event) : Openable w (l ++ t) good rs := by
  intro r hr tr
  rw [← List.append_assoc]
  exact h r hr _

/-- The redirections up to the first that cannot be opened. -/
theorem evalRedirects_fail (w : World) (good : Redir → Bool) (rs : List Redir) (hr : ∀ r ∈ rs, r.op ≠ .clobber)
    {x : Sh} (hstd : ∀ i : Nat, i < 3 → x.fds.has i = true) (hu : Uniq x.fds) (ho : Openable w x.trace good rs)
    (hbad : ∃ r ∈ rs, good r = false) :
    ∃ y, evalRedirects w (rs.map Redir.io) x = (.panic .unwrap, y) ∧
      y.trace = ((rs.takeWhile good).map fun r => Event.opened r.op r.file).reverse ++ x.trace ∧
      effFd y.fds 2 = effFd x.fds 2 := by
  induction rs generalizing x with
  | nil => obtain ⟨r, h, -⟩ := hbad; cases h
  | cons r rs ih =>
    have h0 : w.openOk x.trace r.op r.file = good r := ho r List.mem_cons_self []
    rw [List.map_cons, evalRedirects]
    cases hg : good r with
    | true =>
      rw [hg] at h0
      obtain ⟨y, h1, h2, h3, h4, h5⟩ := evalRedirect1_run w (hr r List.mem_cons_self) hstd hu h0
      have htr : y.trace = .opened r.op r.file :: x.trace := by rw [h2]
      obtain ⟨z, g1, g2, g3⟩ := ih (fun r' hr' => hr r' (List.mem_cons_of_mem _ hr')) h3 h4
        (by rw [htr]; exact Openable.after (fun r' hr' tr => ho r' (List.mem_cons_of_mem _ hr') tr) [_]) (by
          obtain ⟨r', hm, hb⟩ := hbad
          rcases List.mem_cons.1 hm with rfl | hm
          · rw [hg] at hb; cases hb
          · exact ⟨r', hm, hb⟩)
      refine ⟨z, by rw [run_bind_ok h1]; exact g1, ?_, ?_⟩
      · rw [g2, htr, List.takeWhile_cons_of_pos hg]
        simp
      · rw [g3, h5, if_neg]
        unfold Redir.fd
        split <;> decide
    | false =>
      rw [hg] at h0
      have htar : redirFd r.op = some r.fd := by
        have := hr r List.mem_cons_self
        unfold Redir.fd
        cases hop : r.op <;> simp [redirFd] at *
        exact absurd hop this
      refine ⟨x, ?_, ?_, rfl⟩
      · refine run_bind_panic ?_ _
        unfold evalRedirect1 Redir.io
        simp only [htar]
        refine run_bind_panic ?_ _
        unfold openU
        rw [if_neg (by rw [h0]; simp)]
      · rw [List.takeWhile_cons_of_neg (by rw [hg]; simp)]
        rfl

theorem openable_all {w : World} {t : List Event} {good : Redir → Bool} {rs : List Redir}
    (h : Openable w t good rs) (hall : ∀ r ∈ rs, good r = true) :
    ∀ r ∈ rs, ∀ tr, w.openOk (tr ++ t) r.op r.file = true :=
  fun r hr tr => by rw [h r hr tr]; exact hall r hr

theorem takeWhile_append_all {p : α → Bool} {a b : List α} (h : ∀ x ∈ a, p x = true) :
    (a ++ b).takeWhile p = a ++ b.takeWhile p := by
  induction a with
  | nil => rfl
  | cons x a ih =>
    rw [List.cons_append, List.takeWhile_cons_of_pos (h x List.mem_cons_self),
      ih fun y hy => h y (List.mem_cons_of_mem _ hy)]
    rfl

theorem takeWhile_append_some {p : α → Bool} {a b : List α} (h : ∃ x ∈ a, p x = false) :
    (a ++ b).takeWhile p = a.takeWhile p := by
  induction a with
  | nil => obtain ⟨x, h, -⟩ := h; cases h
  | cons x a ih =>
    rw [List.cons_append]
    cases hx : p x with
    | false => rw [List.takeWhile_cons_of_neg (by simp [hx]), List.takeWhile_cons_of_neg (by simp [hx])]
    | true =>
      rw [List.takeWhile_cons_of_pos hx, List.takeWhile_cons_of_pos hx, ih]
      obtain ⟨y, hy, hb⟩ := h
      rcases List.mem_cons.1 hy with rfl | hy
      · rw [hx] at hb; cases hb
      · exact ⟨y, hy, hb⟩

/-- What the child does, if some file cannot be opened. -/
theorem RCmd.prefixSuffix_fail (w : World) {c : RCmd} {s : Sh} (h : c.Ok s) (good : Redir → Bool) {x : Sh}
    (hstd : ∀ i : Nat, i < 3 → x.fds.has i = true) (hu : Uniq x.fds) (ho : Openable w x.trace good c.applied)
    (hbad : ∃ r ∈ c.applied, good r = false) :
    ∃ y, evalPrefixSuffix w c.ext.proc.2 x = (.panic .unwrap, y) ∧
      y.trace = ((c.applied.takeWhile good).map fun r => Event.opened r.op r.file).reverse ++ x.trace ∧
      effFd y.fds 2 = effFd x.fds 2 := by
  have hr1 : ∀ r ∈ frontRedirs c.front, r.op ≠ .clobber := fun r hr =>
    (h.redirs r (List.mem_append_left _ hr)).1
  have hr2 : ∀ r ∈ (if backArgs c.back = [] then [] else backRedirs c.back), r.op ≠ .clobber := fun r hr =>
    (h.redirs r (List.mem_append_right _ (by split at hr <;> simp_all))).1
  have ho1 : Openable w x.trace good (frontRedirs c.front) := fun r hr => ho r (List.mem_append_left _ hr)
  have hpre : c.ext.proc.2.pre = if c.front = [] then none else some (⟨(frontRedirs c.front).map Redir.io,
      (frontAssigns c.front).map assignText⟩ : Prefix) := rfl
  have hsuf : c.ext.proc.2.suffix = some ⟨if c.ext.words = [] then [] else (backRedirs c.back).map Redir.io,
      c.ext.words.map Prod.snd⟩ := rfl
  by_cases hb1 : ∃ r ∈ frontRedirs c.front, good r = false
  · obtain ⟨y, a1, a2, a3⟩ := evalRedirects_fail w good _ hr1 hstd hu ho1 hb1
    have hf : c.front ≠ [] := by
      intro e
      rw [e] at hb1
      obtain ⟨r, hm, -⟩ := hb1
      cases hm
    refine ⟨y, ?_, ?_, a3⟩
    · unfold evalPrefixSuffix
      rw [hpre, if_neg hf]
      simp only
      exact run_bind_panic a1 _
    · unfold RCmd.applied
      rw [takeWhile_append_some hb1]
      exact a2
  · have hg1 : ∀ r ∈ frontRedirs c.front, good r = true := fun r hr => by
      cases hg : good r with
      | true => rfl
      | false => exact absurd ⟨r, hr, hg⟩ hb1
    obtain ⟨y1, a1, a2, a3, a4, a5⟩ := evalRedirects_run w _ hr1 hstd hu (openable_all ho1 hg1)
    obtain ⟨env, b1, b2⟩ := evalAssignments_run (frontAssigns c.front) h.assigns y1
    have htr : y1.trace = ((frontRedirs c.front).map fun r => Event.opened r.op r.file).reverse ++ x.trace := by rw [a2]
    have hb2 : ∃ r ∈ (if backArgs c.back = [] then [] else backRedirs c.back), good r = false := by
      obtain ⟨r, hm, hb⟩ := hbad
      rcases List.mem_append.1 hm with hm | hm
      · exact absurd ⟨r, hm, hb⟩ hb1
      · exact ⟨r, hm, hb⟩
    obtain ⟨y2, d1, d2, d3⟩ := evalRedirects_fail w good _ hr2 (x := { y1 with env }) a3 a4
      (by
        show Openable w y1.trace good _
        rw [htr]
        exact Openable.after (fun r hr => ho r (List.mem_append_right _ hr)) _) hb2
    have hgo : evalRedirects w (if c.ext.words = [] then [] else (backRedirs c.back).map Redir.io) { y1 with env } =
        (.panic .unwrap, y2) := by
      rw [show c.ext.words = backArgs c.back from List.append_nil _]
      rw [← d1]
      congr 1
      split <;> rfl
    refine ⟨y2, ?_, ?_, ?_⟩
    · unfold evalPrefixSuffix
      rw [hpre, hsuf]
      by_cases hf : c.front = []
      · rw [hf] at a1 b1
        have e1 : x = y1 := (Prod.mk.inj a1).2
        have e2 : y1 = { y1 with env } := (Prod.mk.inj b1).2
        rw [← e2, ← e1] at hgo
        rw [if_pos hf]
        simpa using hgo
      · rw [if_neg hf]
        simp only
        rw [run_bind_ok a1, run_bind_ok b1]
        exact hgo
    · rw [d2, show ({ y1 with env } : Sh).trace = y1.trace from rfl, htr]
      unfold RCmd.applied
      rw [takeWhile_append_all hg1]
      simp
    · rw [d3]
      show effFd y1.fds 2 = _
      rw [a5, redirected_eq]
      have : lastOn 2 (frontRedirs c.front) = none := by
        unfold lastOn
        have : (frontRedirs c.front).filter (fun r => decide (r.fd = 2)) = [] := by
          rw [List.filter_eq_nil_iff]
          intro r _
          unfold Redir.fd
          split <;> decide
        rw [this]; rfl
      rw [this]

/-- A line with one external command, one of whose redirections fails. -/
theorem rcmd_fails {w : World} (hw : Resources w) (n : Nat) {s : Sh} (hp : AtPrompt w s) {c : RCmd}
    (hok : c.Ok s) (good : Redir → Bool) (ho : Openable w s.trace good c.applied)
    (hbad : ∃ r ∈ c.applied, good r = false) :
    ∃ pid, Happened s (interactiveLine w (n + 1) c.text s).2
        [.spawn pid (.panic (some (.orig 2))) ((c.applied.takeWhile good).map fun r => .opened r.op r.file)] := by
  have hfds := AtPrompt_resources_fds hw hp
  obtain ⟨kids, hk, hc⟩ := line_children hw n [c.ext] (by simp) false false (by simpa using RCmd.ext_ok hok)
    (by rw [hfds]; exact stdTable_std) (RCmd.parse hok) (TLine.text_ne (TCmd.line_ok (RCmd.tcmd_ok hok)))
  have hl := hk.length
  rcases kids with _ | ⟨kid, _ | ⟨kid', kids⟩⟩
  · simp at hl
  · have hkid := hk.kid 0 c.ext.proc kid rfl rfl
    obtain ⟨x, hx, -, he, hev⟩ := hkid
    obtain ⟨jc, np, tr, ex⟩ := hx.rest
    have htr : x.trace = tr ++ s.trace := by rw [ex]
    have hF : ∀ fd, x.fds.get fd = stdTable.get fd := by
      intro fd
      rw [hx.fds]
      show stageFd s.fds none none fd = _
      rw [hfds]
      rfl
    have hux : Uniq x.fds := hx.uniq (by show Uniq s.fds; rw [hfds]; exact uniq_stdTable)
    have hstdx : ∀ i : Nat, i < 3 → x.fds.has i = true := by
      intro i hi
      have := stdTable_std.std i hi
      unfold FdTable.has at this ⊢
      rw [hF]
      exact this
    obtain ⟨y, h1, h2, h3⟩ := RCmd.prefixSuffix_fail w hok good hstdx hux (by rw [htr]; exact Openable.after ho tr) hbad
    have hb : childBody w (evalFuel w n) c.ext.proc.1 c.ext.proc.2 x = (.panic .unwrap, y) := by
      unfold childBody
      exact run_bind_panic h1 _
    rw [hb] at he hev
    have h2y : y.fds.get 2 = some ⟨.orig 2, false⟩ := by
      unfold effFd at h3
      rw [hF] at h3
      cases hg : y.fds.get 2 with
      | none => rw [hg] at h3; exact absurd h3 (by decide)
      | some e =>
        rw [hg] at h3
        have h3' : (some e).filter (fun e => !e.cloexec) = some (⟨.orig 2, false⟩ : FdE) := h3.trans (by decide)
        rw [Option.filter_some] at h3'
        split at h3'
        · exact h3'
        · cases h3'
    refine ⟨kid.1, ?_⟩
    have : kid.event = .spawn kid.1 (.panic (some (.orig 2)))
        ((c.applied.takeWhile good).map fun r => .opened r.op r.file) := by
      unfold Kid.event
      rw [hev]
      simp only [childEnd, Option.some.injEq, h2y] at he
      rw [← he]
      simp only [h2, newEvents_append, List.reverse_reverse]
      rfl
    rw [← this]
    exact hc
  · simp at hl

end Rsh
