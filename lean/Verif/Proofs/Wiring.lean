import Verif.Spec.Wiring
import Verif.Proofs.Redirect
import Verif.Proofs.Reference

/-!
# Running pipelines with redirections
-/

namespace Rsh

open Spec

/-- Without redirections this is what is said about pipelines without any. -/
theorem Spec.Plumbed.wired {imgs : List ExecImage} (h : Plumbed imgs) : Wired (fun _ => []) imgs := by
  obtain ⟨pipe, hinj, hj⟩ := h.joined
  refine ⟨pipe, hinj, fun i img hi fd => ?_⟩
  have hm : img ∈ imgs := List.mem_of_getElem? hi
  have hl := (List.getElem?_eq_some_iff.1 hi).1
  show chanOf img fd = stageChan pipe imgs.length i fd
  unfold stageChan
  split
  · next e =>
    subst e
    split
    · next e =>
      subst e
      exact h.firstIn img (by rw [List.head?_eq_getElem?]; exact hi)
    · next e =>
      have hp : imgs[i - 1]? = some imgs[i - 1] := List.getElem?_eq_getElem (by omega)
      exact (hj (i - 1) _ img hp (by rw [Nat.sub_add_cancel (by omega)]; exact hi)).2
  · split
    · next e =>
      subst e
      split
      · next e => exact (hj i img _ hi (List.getElem?_eq_getElem e)).1
      · next e =>
        refine h.lastOut img ?_
        rw [List.getLast?_eq_getElem?, show imgs.length - 1 = i by omega]
        exact hi
    · split
      · next e => subst e; exact h.err img hm
      · next a b c => exact h.only img hm fd a b c

theorem stageFd_chan (np i n : Nat) (fd : Int) :
    (stageFd stdTable (inPipe np i) (outPipe np i n) fd).map FdE.chan = stageChan (fun j => np + j) n i fd := by
  have h0 : (stdTable.get fd).map FdE.chan = stageChan (fun j => np + j) 1 0 fd := by
    unfold stdTable FdTable.get stageChan
    by_cases h0 : fd = 0
    · subst h0; rfl
    by_cases h1 : fd = 1
    · subst h1; rfl
    by_cases h2 : fd = 2
    · subst h2; rfl
    have e0 : (fd == 0) = false := by simpa using h0
    have e1 : (fd == 1) = false := by simpa using h1
    have e2 : (fd == 2) = false := by simpa using h2
    simp [List.lookup, e0, e1, e2, h0, h1, h2]
  unfold stageFd inPipe outPipe
  by_cases hi0 : i = 0 <;> by_cases hin : i + 1 < n <;> simp only [hi0, hin, if_true, if_false] <;>
    (repeat' split) <;> first | (rw [h0]; unfold stageChan; simp only [hi0, hin, if_true, if_false]; simp_all) | simp_all [stageChan]
  rw [if_neg (show ¬ 1 < n by omega)]

/-- The programs of the children. -/
theorem kids_exec (kids : List Kid) (h : ∀ kid ∈ kids, ∃ img, kid.2.1 = .exec img) :
    ∃ imgs : List ExecImage, kids.map (fun k => k.2.1) = imgs.map .exec := by
  induction kids with
  | nil => exact ⟨[], rfl⟩
  | cons k ks ih =>
    obtain ⟨imgs, hi⟩ := ih fun k hk => h k (List.mem_cons_of_mem _ hk)
    obtain ⟨img, e⟩ := h k List.mem_cons_self
    exact ⟨img :: imgs, by simp [hi, e]⟩

theorem execs_of_kids : ∀ (kids : List Kid) (imgs : List ExecImage), kids.map (fun k => k.2.1) = imgs.map .exec →
    execs ((kids.map Kid.event).reverse) = imgs
  | [], [], _ => rfl
  | [], _ :: _, h => by simp at h
  | _ :: _, [], h => by simp at h
  | k :: ks, img :: imgs, h => by
    simp only [List.map_cons, List.cons.injEq] at h
    simp [execs_append, execs_of_kids ks imgs h.2, execs, Kid.event, h.1]

theorem Kids.rimages_of {w : World} {rec : List AndOr → M Int} {b : Bool} {s s0 : Sh} {cs : List RCmd} {kids : List Kid}
    (h : Kids w rec b s (cs.map fun c => c.ext.proc) kids) (hs : ∀ c ∈ cs, c.Ok s0)
    (hfn : ∀ c ∈ cs, s.ctx.isFunction c.name = false) (hfds : s.fds = stdTable)
    (ho : ∀ c ∈ cs, ∀ r ∈ c.applied, ∀ tr, w.openOk (tr ++ s.trace) r.op r.file = true) {file : Str → Str}
    (hrun : ∀ c ∈ cs, ∀ tr, Runnable w s (tr ++ s.trace) c.name (file c.name)) :
    ∃ imgs : List ExecImage, kids.map (fun k => k.2.1) = imgs.map .exec ∧ imgs.length = cs.length ∧
      ∀ (i : Nat) c img, cs[i]? = some c → imgs[i]? = some img →
        (∃ pid, kids[i]? = some (pid, .exec img, c.applied.map fun r => Event.opened r.op r.file)) ∧
        img.path = file c.name ∧ img.argv = c.argv ∧ Launched s img ∧ img.ownGroup = (b || s.ownGroup) ∧
        (∀ y, img.env.get y = (lastAssigned y ((frontAssigns c.front).map cutValue)).or (s.env.get y)) ∧
        ∀ fd, chanOf img fd = match lastOn fd c.applied with
          | some r => some (.file r.op r.file)
          | none => stageChan (fun j => s.nextPipe + j) cs.length i fd := by
  have hlen : kids.length = cs.length := by rw [h.length, List.length_map]
  have key : ∀ (i : Nat) c kid, cs[i]? = some c → kids[i]? = some kid → ∃ img,
      kid.2 = (.exec img, c.applied.map fun r => Event.opened r.op r.file) ∧ img.path = file c.name ∧
      img.argv = c.argv ∧ Launched s img ∧ img.ownGroup = (b || s.ownGroup) ∧
        (∀ y, img.env.get y = (lastAssigned y ((frontAssigns c.front).map cutValue)).or (s.env.get y)) ∧
        ∀ fd, chanOf img fd = match lastOn fd c.applied with
          | some r => some (.file r.op r.file)
          | none => stageChan (fun j => s.nextPipe + j) cs.length i fd := by
    intro i c kid hc hk
    have hm : c ∈ cs := List.mem_of_getElem? hc
    have hkid := h.kid i c.ext.proc kid (by rw [List.getElem?_map, hc]; rfl) hk
    rw [List.length_map] at hkid
    obtain ⟨img, h1, h2, h3, h4, h5, h6, h7⟩ := KidOk.rcmd hkid (hs c hm) (hfn c hm)
      (by show Uniq s.fds; rw [hfds]; exact uniq_stdTable)
      (by intro i hi; show s.fds.has i = true; rw [hfds]; exact stdTable_std.std i hi) (ho c hm)
      (fun tr => ⟨(hrun c hm tr).path, (hrun c hm tr).exec, (hrun c hm tr).nul⟩)
    refine ⟨img, h1, h2, h3, ⟨h4.1, h4.2, h4.3⟩, h5, h6, fun fd => ?_⟩
    unfold chanOf
    rw [h7, redirected_eq]
    cases lastOn fd c.applied with
    | some r => rfl
    | none =>
      show (((stageFd s.fds (inPipe s.nextPipe i) (outPipe s.nextPipe i cs.length) fd).filter _)).map _ = _
      rw [hfds, stdTable_filter, stageFd_chan]
  have hget : ∀ (i : Nat) kid, kids[i]? = some kid → ∃ c, cs[i]? = some c := by
    intro i kid hk
    have := (List.getElem?_eq_some_iff.1 hk).1
    exact ⟨_, List.getElem?_eq_getElem (by omega)⟩
  obtain ⟨imgs, hi⟩ := kids_exec kids fun kid hk => by
    obtain ⟨i, hi⟩ := List.getElem?_of_mem hk
    obtain ⟨c, hc⟩ := hget i kid hi
    obtain ⟨img, h1, -⟩ := key i c kid hc hi
    exact ⟨img, by rw [h1]⟩
  have hil : imgs.length = cs.length := by
    have := congrArg List.length hi
    simp only [List.length_map] at this
    omega
  refine ⟨imgs, hi, hil, fun i c img hc him => ?_⟩
  have hlt := (List.getElem?_eq_some_iff.1 hc).1
  have hk : kids[i]? = some kids[i] := List.getElem?_eq_getElem (by omega)
  obtain ⟨img', h1, h2⟩ := key i c _ hc hk
  have : img' = img := by
    have e := congrArg (fun l : List ChildEnd => l[i]?) hi
    simp only [List.getElem?_map, hk, him, Option.map_some, h1, Option.some.injEq, ChildEnd.exec.injEq] at e
    exact e
  subst this
  exact ⟨⟨kids[i].1, by rw [hk, ← h1]⟩, h2⟩

theorem Kids.rimages {w : World} {rec : List AndOr → M Int} {b : Bool} {s : Sh} {cs : List RCmd} {kids : List Kid}
    (h : Kids w rec b s (cs.map fun c => c.ext.proc) kids) (hs : ∀ c ∈ cs, c.Ok s) (hfds : s.fds = stdTable)
    (ho : ∀ c ∈ cs, ∀ r ∈ c.applied, ∀ tr, w.openOk (tr ++ s.trace) r.op r.file = true) {file : Str → Str}
    (hrun : ∀ c ∈ cs, ∀ tr, Runnable w s (tr ++ s.trace) c.name (file c.name)) :
    ∃ imgs : List ExecImage, kids.map (fun k => k.2.1) = imgs.map .exec ∧ imgs.length = cs.length ∧
      ∀ (i : Nat) c img, cs[i]? = some c → imgs[i]? = some img →
        (∃ pid, kids[i]? = some (pid, .exec img, c.applied.map fun r => Event.opened r.op r.file)) ∧
        img.path = file c.name ∧ img.argv = c.argv ∧ Launched s img ∧ img.ownGroup = (b || s.ownGroup) ∧
        (∀ y, img.env.get y = (lastAssigned y ((frontAssigns c.front).map cutValue)).or (s.env.get y)) ∧
        ∀ fd, chanOf img fd = match lastOn fd c.applied with
          | some r => some (.file r.op r.file)
          | none => stageChan (fun j => s.nextPipe + j) cs.length i fd :=
  Kids.rimages_of h hs (fun c hc => (hs c hc).function) hfds ho hrun

end Rsh
