import Verif.Spec.Misuse
import Verif.Props.Commands
import Verif.Props.Signals

/-!
# Property C125: builtins called the wrong way
-/

namespace Rsh

open Spec

theorem lookup_none {α β : Type} [BEq α] [LawfulBEq α] {k : α} {l : List (α × β)} (h : ∀ v, (k, v) ∉ l) : l.lookup k = none := by
  cases e : l.lookup k with
  | none => rfl
  | some v => exact absurd (lookup_mem e) (h v)

theorem Spec.Misuse.masked {s : Sh} {name : Str} {vs : List Str} {msg : Str} (h : Misuse s name vs msg) :
    Misuse { s with masked := true } name vs msg := by
  cases h with
  | unset => exact .unset
  | unsetOption h1 h2 h3 h4 => exact .unsetOption h1 h2 h3 h4
  | readonly => exact .readonly
  | readonlyOption h1 h2 h3 h4 h5 => exact .readonlyOption h1 h2 h3 h4 h5
  | readonlyOptions h1 h2 h3 h4 => exact .readonlyOptions h1 h2 h3 h4
  | unalias => exact .unalias
  | exec => exact .exec
  | execName h1 h2 h3 => exact .execName h1 h2 h3
  | source h => exact .source h
  | exportContext => exact .exportContext
  | noJob h1 h2 h3 => exact .noJob h1 h2 h3
  | noProcess h1 h2 h3 => exact .noProcess h1 h2 h3

theorem misuse_job (w : World) (s : Sh) {name : Str} {n : Nat} {xs : List Str} (h1 : n ≤ 4294967295)
    (h2 : ∀ j, (n, j) ∉ s.jc.table) (hm : s.masked = true) :
    bFgBg w ⟨none, name, some ⟨[], ('%' :: natStr n) :: xs⟩⟩ s = (.err (cs!"No job with that jid"), s) := by
  have hs : s = { s with masked := true } := by rw [← hm]
  unfold bFgBg fgbgId interruptsOff wordAt
  simp only [run_modS_bind, bind_assoc]
  simp [run_bind, parseU32_natStr h1, findJob, getS, JobControl.getJob, tGet, lookup_none h2, throwE]
  exact hs.symm

theorem misuse_process (w : World) (s : Sh) {name : Str} {n : Nat} {xs : List Str} (h1 : n < 2147483648)
    (h2 : ∀ i, ((n : Int), i) ∉ s.jc.pids) (hm : s.masked = true) :
    bFgBg w ⟨none, name, some ⟨[], natStr n :: xs⟩⟩ s = (.err (cs!"No job with that pid"), s) := by
  have hs : s = { s with masked := true } := by rw [← hm]
  unfold bFgBg interruptsOff
  rw [run_modS_bind, ← hs, run_bind, fgbgId_pid (show n ≤ 4294967295 by omega)]
  simp [run_bind, findJob, getS, asI32_small (show n ≤ 2147483647 by omega), lookup_none h2, throwE, JobControl.getJobPid, tGet]

theorem misuse_call (w : World) (rec : List AndOr → M Int) {s : Sh} {name : Str} {vs : List Str} {msg : Str}
    (h : Misuse s name vs msg) (hm : s.masked = true) :
    callBuiltin w rec ⟨none, name, some ⟨[], vs⟩⟩ s = (.err msg, s) := by
  cases h with
  | unset => rfl
  | unsetOption h1 h2 h3 h4 =>
    rw [callBuiltin_unset w rec rfl]
    simp [bUnset, SimpleCommand.words, unsetFlags, hasChar_iff.2 h1, hasChar_false.2 h2, hasChar_false.2 h3,
      hasChar_false.2 h4, run_bind, throwE]
  | readonly => rfl
  | readonlyOption h1 h2 h3 h4 h5 =>
    rw [callBuiltin_readonly w rec rfl]
    simp [bReadonly, SimpleCommand.words, readonlyFlags, hasChar_iff.2 h1, hasChar_false.2 h2, hasChar_false.2 h3,
      hasChar_false.2 h4, hasChar_false.2 h5, run_bind, throwE]
  | @readonlyOptions x y xs h1 h2 h3 h4 =>
    rw [callBuiltin_readonly w rec rfl]
    have hfl : ∃ fl, readonlyFlags x = pure (fl, 1, false) := by
      unfold readonlyFlags
      rw [if_pos (hasChar_iff.2 h1)]
      by_cases hf : hasChar 'f' x = true
      · exact ⟨_, if_pos hf⟩
      rw [if_neg hf]
      by_cases hcc : hasChar 'c' x = true
      · exact ⟨_, if_pos hcc⟩
      rw [if_neg hcc]
      rcases h2 with h | h | h
      · exact absurd (hasChar_iff.2 h) hf
      · exact absurd (hasChar_iff.2 h) hcc
      · exact ⟨_, if_pos (hasChar_iff.2 h)⟩
    obtain ⟨fl, hfl⟩ := hfl
    simp [bReadonly, SimpleCommand.words, hfl, wordAt, readonlyFlags2, hasChar_iff.2 h3, hasChar_false.2 h4, run_bind, throwE]
  | unalias => rfl
  | exec => rfl
  | @execName x xs h1 h2 h3 =>
    rw [callBuiltin_exec w rec rfl]
    have hlen : (x :: xs).length ≤ 2 := by simp only [List.length_cons]; omega
    have ho : execOpts1 (x :: xs) s = (.err (cs!"exec -a needs an argument"), s) := by
      unfold execOpts1
      simp only [wordAt, List.getElem?_cons_zero, unwrapM_some, run_pure_bind, hasChar_iff.2 h1, hasChar_iff.2 h2, if_true]
      rw [if_pos hlen]
      rfl
    show bExec w ⟨none, cs!"exec", some ⟨[], x :: xs⟩⟩ s = _
    unfold bExec
    simp only [SimpleCommand.words]
    rw [run_bind, ho]
  | source h =>
    simp only [List.mem_cons, List.not_mem_nil, or_false] at h
    rcases h with rfl | rfl <;> rfl
  | exportContext => rfl
  | noJob h1 h2 h3 =>
    simp only [List.mem_cons, List.not_mem_nil, or_false] at h1
    rcases h1 with rfl | rfl
    · rw [callBuiltin_fg w rec rfl]
      exact misuse_job w s h2 h3 hm
    · rw [callBuiltin_bg w rec rfl]
      exact misuse_job w s h2 h3 hm
  | noProcess h1 h2 h3 =>
    simp only [List.mem_cons, List.not_mem_nil, or_false] at h1
    rcases h1 with rfl | rfl
    · rw [callBuiltin_fg w rec rfl]
      exact misuse_process w s h2 h3 hm
    · rw [callBuiltin_bg w rec rfl]
      exact misuse_process w s h2 h3 hm

/-- C125: a builtin called the wrong way prints what is wrong on its standard output, and does nothing. -/
theorem C125_reported (w : World) (n : Nat) (s : Sh) (c : Call) (hc : c.Ok s) (msg : Str)
    (h : Misuse s c.name c.values msg) :
    interactiveLine w (n + 1) c.text s = (.ok (), { s with
      masked := true
      trace := .print ((s.fds.get 1).map FdE.chan) (msg ++ ['\n']) :: s.trace }) := by
  rw [Call.line w n hc]
  exact reportM_err (misuse_call w (evalFuel w n) h.masked rfl)

/-- The hypotheses of C125 hold for calls that can be typed. -/
example : (⟨cs!"fg", [word (cs!"%7")]⟩ : Call).Ok (demoShell []) ∧
    Misuse (demoShell []) (cs!"fg") [cs!"%7"] (cs!"No job with that jid") ∧
    (⟨cs!"exec", [word (cs!"-a"), word (cs!"x")]⟩ : Call).Ok (demoShell []) ∧
    Misuse (demoShell []) (cs!"exec") [cs!"-a", cs!"x"] (cs!"exec -a needs an argument") := by
  have h : (demoShell []).jc.table = [] := by decide +kernel
  exact ⟨⟨by decide, by decide, by decide +kernel, by decide, by
      intro a ha
      simp only [List.mem_cons, List.not_mem_nil, or_false] at ha
      subst ha
      exact means_word (by decide)⟩,
    .noJob (n := 7) (by simp) (by omega) (by simp [h]),
    ⟨by decide, by decide, by decide +kernel, by decide, by
      intro a ha
      simp only [List.mem_cons, List.not_mem_nil, or_false] at ha
      rcases ha with rfl | rfl <;> exact means_word (by decide)⟩, .execName (by simp) (by simp) (by simp)⟩

/-- C24: a definition with two equal signs is refused with a message on the standard error, and changes nothing. -/
theorem C24_refused (w : World) (n : Nat) (s : Sh) (c : Call) (hc : c.Ok s) (hn : c.name = cs!"alias") (x y z : Str)
    (hv : c.values = [x ++ '=' :: y ++ '=' :: z]) (hx : '=' ∉ x) (hy : '=' ∉ y)
    (hp : ∀ a b, x ++ '=' :: y ++ '=' :: z ≠ a ++ cs!"-p" ++ b) :
    interactiveLine w (n + 1) c.text s = (.ok (), { s with
      masked := true
      trace := .eprint ((s.fds.get 2).map FdE.chan) (cs!"Invalid alias\n") :: s.trace }) := by
  rw [Call.line w n hc, callBuiltin_alias _ _ (show (Call.simple c).name = _ from hn)]
  apply reportM_ok
  unfold bAlias Call.simple
  simp only [hv]
  have h1 : hasSub (cs!"-p") (x ++ '=' :: y ++ '=' :: z) = false := (hasSub_false _ _).2 hp
  have h2 : hasChar '=' (x ++ '=' :: y ++ '=' :: z) = true := hasChar_iff.2 (by simp)
  have h3 : splitOn '=' (x ++ '=' :: y ++ '=' :: z) = x :: y :: splitOn '=' z := by
    rw [List.append_assoc, List.cons_append, splitOn_append _ _ _ hx, splitOn_append _ _ _ hy]
  rw [run_getS_bind]
  simp only [wordAt, List.getElem?_cons_zero, unwrapM_some, run_pure_bind, h1, Bool.false_eq_true, if_false]
  unfold addAliases
  rw [if_pos h2]
  unfold addAlias
  rw [h3]
  cases hz : splitOn '=' z with
  | nil => exact absurd hz (splitOn_ne_nil _ _)
  | cons u t => rfl

/-- The hypotheses of `C24_refused` hold for `alias a=b=c`. -/
example : (⟨cs!"alias", [(.single (cs!"a=b=c"), cs!"a=b=c")]⟩ : Call).Ok (demoShell []) ∧ '=' ∉ (cs!"a") ∧ '=' ∉ (cs!"b") ∧
    ∀ a b, (cs!"a") ++ '=' :: (cs!"b") ++ '=' :: (cs!"c") ≠ a ++ cs!"-p" ++ b :=
  ⟨⟨by decide, by decide, by decide +kernel, by decide, by
    intro a ha
    simp only [List.mem_cons, List.not_mem_nil, or_false] at ha
    subst ha
    rfl⟩, by decide, by decide, (hasSub_false _ _).1 (by decide)⟩

end Rsh
