import Verif.Spec.Redirect
import Verif.Proofs.Pipes

/-!
# Redirections and prefix assignments
-/

namespace Rsh

open Spec

/-- What a program started now would find at a descriptor. -/
def effFd (t : FdTable) (fd : Int) : Option FdE := (t.get fd).filter fun e => !e.cloexec

/-- The redirection as the parser delivers it. -/
def Spec.Redir.io (r : Redir) : IoRedirect := ⟨r.num, some ⟨r.op, r.file⟩, none⟩

/-- The table of a process after some redirections. -/
def redirected (t : Int → Option FdE) : List Redir → Int → Option FdE
  | [] => t
  | r :: rs => redirected (fun fd => if fd = r.fd then some ⟨.file r.op r.file, false⟩ else t fd) rs

theorem get_set (t : FdTable) (fd fd' : Int) (e : FdE) :
    (t.set fd e).get fd' = if fd' = fd then some e else t.get fd' := by
  unfold FdTable.set FdTable.get
  rw [List.lookup_cons]
  by_cases h : fd' = fd
  · simp [h]
  · rw [if_neg h]
    have : (fd' == fd) = false := by simpa using h
    rw [this]
    show (t.erase fd).lookup fd' = t.lookup fd'
    unfold FdTable.erase
    induction t with
    | nil => rfl
    | cons p t ih =>
      obtain ⟨k, v⟩ := p
      by_cases hk : k = fd
      · rw [List.filter_cons_of_neg (by simpa using hk), ih, List.lookup_cons]
        have : (fd' == k) = false := by rw [hk]; simpa using h
        rw [this]
      · rw [List.filter_cons_of_pos (by simpa using hk), List.lookup_cons, List.lookup_cons, ih]

/-- One redirection. -/
theorem evalRedirect1_run (w : World) {r : Redir} (hr : r.op ≠ .clobber) {x : Sh}
    (hstd : ∀ i : Nat, i < 3 → x.fds.has i = true) (hu : Uniq x.fds) (ho : w.openOk x.trace r.op r.file = true) :
    ∃ y, evalRedirect1 w r.io x = (.ok (), y) ∧
      y = { x with fds := y.fds, trace := .opened r.op r.file :: x.trace } ∧
      (∀ i : Nat, i < 3 → y.fds.has i = true) ∧ Uniq y.fds ∧
      ∀ fd, effFd y.fds fd = if fd = r.fd then some ⟨.file r.op r.file, false⟩ else effFd x.fds fd := by
  have h3 := FdTable.lowestFree_std hstd
  have hn := FdTable.lowestFree_not_has x.fds
  have htar : redirFd r.op = some r.fd := by
    unfold Redir.fd
    cases hop : r.op <;> simp [redirFd] at * 
    exact absurd hop hr
  have hfd : r.fd = 0 ∨ r.fd = 1 := by unfold Redir.fd; split <;> simp
  have hne : x.fds.lowestFree ≠ r.fd := by omega
  refine ⟨{ x with
    fds := (x.fds.set x.fds.lowestFree ⟨.file r.op r.file, true⟩).set r.fd ⟨.file r.op r.file, false⟩
    trace := .opened r.op r.file :: x.trace }, ?_, rfl, ?_, ?_, ?_⟩
  · unfold evalRedirect1 Redir.io
    simp only [htar]
    have h1 : openU w r.op r.file x = (.ok x.fds.lowestFree, { x with
        fds := x.fds.set x.fds.lowestFree ⟨.file r.op r.file, true⟩
        trace := .opened r.op r.file :: x.trace }) := by
      unfold openU
      rw [if_pos ho]
    rw [run_bind_ok h1]
    unfold dup2U
    simp only [get_set, if_true]
    rw [if_neg hne]
  · intro i hi
    unfold FdTable.has
    simp only [get_set]
    split
    · rfl
    · split
      · rfl
      · exact hstd i hi
  · exact (hu.set _ _).set _ _
  · intro fd
    unfold effFd
    simp only [get_set]
    split
    · rfl
    · split
      · next h =>
        rw [h, not_has_get hn]
        rfl
      · rfl

theorem evalRedirects_run (w : World) (rs : List Redir) (hr : ∀ r ∈ rs, r.op ≠ .clobber) {x : Sh}
    (hstd : ∀ i : Nat, i < 3 → x.fds.has i = true) (hu : Uniq x.fds)
    (ho : ∀ r ∈ rs, ∀ tr, w.openOk (tr ++ x.trace) r.op r.file = true) :
    ∃ y, evalRedirects w (rs.map Redir.io) x = (.ok (), y) ∧
      y = { x with fds := y.fds, trace := (rs.map fun r => Event.opened r.op r.file).reverse ++ x.trace } ∧
      (∀ i : Nat, i < 3 → y.fds.has i = true) ∧ Uniq y.fds ∧
      ∀ fd, effFd y.fds fd = redirected (effFd x.fds) rs fd := by
  induction rs generalizing x with
  | nil => exact ⟨x, rfl, rfl, hstd, hu, fun _ => rfl⟩
  | cons r rs ih =>
    obtain ⟨y, h1, h2, h3, h4, h5⟩ := evalRedirect1_run w (hr r List.mem_cons_self) hstd hu
      (ho r List.mem_cons_self [])
    have htr : y.trace = .opened r.op r.file :: x.trace := by rw [h2]
    obtain ⟨z, g1, g2, g3, g4, g5⟩ := ih (fun r' hr' => hr r' (List.mem_cons_of_mem _ hr')) h3 h4
      (fun r' hr' tr => by
        rw [htr]
        have := ho r' (List.mem_cons_of_mem _ hr') (tr ++ [.opened r.op r.file])
        simpa using this)
    refine ⟨z, ?_, ?_, g3, g4, ?_⟩
    · rw [List.map_cons]
      unfold evalRedirects
      rw [run_bind_ok h1, g1]
    · rw [g2, h2]
      simp
    · intro fd
      rw [g5, show effFd y.fds = _ from funext h5]
      rfl

theorem redirected_eq (t : Int → Option FdE) (rs : List Redir) (fd : Int) :
    redirected t rs fd = match lastOn fd rs with
      | some r => some ⟨.file r.op r.file, false⟩
      | none => t fd := by
  induction rs generalizing t with
  | nil => rfl
  | cons r rs ih =>
    unfold redirected
    rw [ih]
    unfold lastOn
    by_cases h : r.fd = fd
    · rw [List.filter_cons_of_pos (by simpa using h), List.getLast?_cons]
      cases (rs.filter fun r => decide (r.fd = fd)).getLast? with
      | some r' => rfl
      | none => simp [h]
    · rw [List.filter_cons_of_neg (by simpa using h)]
      cases (rs.filter fun r => decide (r.fd = fd)).getLast? with
      | some r' => rfl
      | none => simp [Ne.symm h]

/-! ## Assignments -/

/-- An assignment as the parser delivers it. -/
def assignText (a : Str × Typed) : Str := a.1 ++ '=' :: a.2.text

theorem evalAssignments_run (as : List (Str × Typed))
    (h : ∀ a ∈ as, PlainWord a.1 ∧ a.2.Ok ∧ '$' ∉ a.2.text ∧ '\x00' ∉ a.1 ∧ '\x00' ∉ a.2.text) (x : Sh) :
    ∃ env, evalAssignments (as.map assignText) x = (.ok (), { x with env }) ∧
      ∀ y, env.get y = (lastAssigned y (as.map cutValue)).or (x.env.get y) := by
  induction as generalizing x with
  | nil => exact ⟨x.env, rfl, fun y => by simp [lastAssigned]⟩
  | cons a as ih =>
    obtain ⟨h1, -, -, h3, h4⟩ := h a List.mem_cons_self
    obtain ⟨env, e1, e2⟩ := ih (fun b hb => h b (List.mem_cons_of_mem _ hb))
      { x with env := x.env.insert a.1 (cutValue a).2 }
    refine ⟨env, ?_, ?_⟩
    · rw [List.map_cons]
      unfold evalAssignments
      obtain ⟨l, hs⟩ : ∃ l, splitOn '=' (assignText a) = a.1 :: (cutValue a).2 :: l := by
        obtain ⟨l, hl⟩ := splitOn_head '=' a.2.text
        refine ⟨l, ?_⟩
        unfold assignText
        rw [splitOn_append _ _ _ (fun e => (h1.2.1 _ e).2 (by decide)), hl]
        rfl
      rw [hs]
      simp only
      rw [run_bind_ok (s' := { x with env := x.env.insert a.1 (cutValue a).2 }) (a := ()) ?_, e1]
      unfold setEnv
      rw [if_neg]
      have q1 : a.1 ≠ [] := h1.1
      have q2 : '=' ∉ a.1 := fun e => (h1.2.1 _ e).2 (by decide)
      simp only [hasChar_iff, not_or]
      exact ⟨q1, q2, h3, fun e => h4 (List.takeWhile_sublist _ |>.subset e)⟩
    · intro y
      rw [e2]
      unfold lastAssigned
      simp only [List.map_cons, List.reverse_cons, List.lookup_append]
      rw [AMap.get_insert]
      cases List.lookup y (as.map cutValue).reverse with
      | some v => rfl
      | none =>
        by_cases hy : y = a.1
        · subst hy
          obtain ⟨k, v⟩ := a
          simp [List.lookup, cutValue]
        · have : (y == a.1) = false := by simpa using hy
          obtain ⟨k, v⟩ := a
          simp only at this hy
          simp [List.lookup, cutValue, this, hy]

/-! ## The command -/

theorem redirsOf_front (fs : List Front) : redirsOf (fs.map Front.part) = (frontRedirs fs).map Redir.io := by
  induction fs with
  | nil => rfl
  | cons f fs ih => cases f <;> simp [Front.part, Redir.part, redirsOf, frontRedirs, ih, Redir.io]

theorem wordsOf_front (fs : List Front) : wordsOf (fs.map Front.part) = (frontAssigns fs).map assignText := by
  induction fs with
  | nil => rfl
  | cons f fs ih => cases f <;> simp [Front.part, Redir.part, wordsOf, frontAssigns, ih, assignText]

theorem redirsOf_back (fs : List Back) : redirsOf (fs.map Back.part) = (backRedirs fs).map Redir.io := by
  induction fs with
  | nil => rfl
  | cons f fs ih => cases f <;> simp [Back.part, Redir.part, redirsOf, backRedirs, ih, Redir.io]

theorem wordsOf_back (fs : List Back) : wordsOf (fs.map Back.part) = (backArgs fs).map fun a => a.1.text := by
  induction fs with
  | nil => rfl
  | cons f fs ih => cases f <;> simp [Back.part, Redir.part, wordsOf, backArgs, ih]

theorem back_nil (fs : List Back) : fs = [] ↔ backArgs fs = [] ∧ backRedirs fs = [] := by
  cases fs with
  | nil => simp [backArgs, backRedirs]
  | cons f fs => cases f <;> simp [backArgs, backRedirs]

/-- The command as the other theorems about external commands have it. -/
def Spec.RCmd.ext (c : RCmd) : Ext where
  pre := if c.front = [] then none else some ⟨(frontRedirs c.front).map Redir.io, (frontAssigns c.front).map assignText⟩
  name := c.name
  args := backArgs c.back
  redirs := (backRedirs c.back).map Redir.io

theorem RCmd.command_ext (c : RCmd) : .simple c.tcmd.command = c.ext.command := by
  unfold RCmd.tcmd TCmd.command RCmd.ext Ext.command
  simp only [wordsOf_front, redirsOf_front, redirsOf_back, wordsOf_back, List.map_eq_nil_iff, Option.map_some,
    Option.getD_some, Typed.text]
  congr 2
  simp only [back_nil c.back]

theorem assignText_noDollar {a : Str × Typed} (h1 : PlainWord a.1) (h2 : '$' ∉ a.2.text) : '$' ∉ assignText a := by
  unfold assignText
  simp only [List.mem_append, List.mem_cons, not_or]
  exact ⟨fun e => (h1.2.1 _ e).2 (by decide), by decide, h2⟩

theorem Redir.part_ok {r : Redir} (h : r.Ok) : r.part.Ok := by
  obtain ⟨op, t, num⟩ := r
  cases num with
  | none => exact ⟨h.op, h.word⟩
  | some n => exact ⟨h.op, h.word, h.num n rfl⟩

theorem RCmd.ext_ok {c : RCmd} {s : Sh} (h : c.Ok s) : c.ext.Ok s where
  plain := h.name
  external := h.external
  alias := .inl ⟨h.alias, rfl, rfl⟩
  function := h.function
  args a ha := h.means a (by simpa [RCmd.ext, Ext.words] using ha)
  nul v hv := h.nul v (by simpa [RCmd.ext, Ext.argv, Ext.words, RCmd.argv] using hv)
  assign p hp a ha := by
    unfold RCmd.ext at hp
    simp only at hp
    split at hp
    · cases hp
    · cases hp
      simp only [List.mem_map] at ha
      obtain ⟨b, hb, rfl⟩ := ha
      obtain ⟨h1, -, h2, -, -⟩ := h.assigns b hb
      exact assignText_noDollar h1 h2

theorem RCmd.tcmd_ok' {c : RCmd} (hredirs : ∀ r ∈ c.redirs, r.Ok)
    (hassigns : ∀ a ∈ frontAssigns c.front, PlainWord a.1 ∧ a.2.Ok) (hname : PlainWord c.name)
    (htyped : ∀ a ∈ backArgs c.back, a.1.Ok) : c.tcmd.Ok where
  before p hp := by
    simp only [RCmd.tcmd, List.mem_map] at hp
    obtain ⟨f, hf, rfl⟩ := hp
    cases f with
    | redir r =>
      have : r ∈ c.redirs := List.mem_append_left _ (by
        have : ∀ fs : List Front, .redir r ∈ fs → r ∈ frontRedirs fs := by
          intro fs
          induction fs with
          | nil => simp
          | cons g fs ih =>
            intro hm
            rcases List.mem_cons.1 hm with e | hm2
            · rw [← e]; simp [frontRedirs]
            · cases g <;> simp [frontRedirs, ih hm2]
        exact this _ hf)
      exact Redir.part_ok (hredirs r this)
    | assign x v =>
      have : (x, v) ∈ frontAssigns c.front := by
        have : ∀ fs : List Front, .assign x v ∈ fs → (x, v) ∈ frontAssigns fs := by
          intro fs
          induction fs with
          | nil => simp
          | cons g fs ih =>
            intro hm
            rcases List.mem_cons.1 hm with e | hm2
            · rw [← e]; simp [frontAssigns]
            · cases g <;> simp [frontAssigns, ih hm2]
        exact this _ hf
      exact hassigns _ this
  noArg t ht := by
    simp only [RCmd.tcmd, List.mem_map] at ht
    obtain ⟨f, hf, e⟩ := ht
    cases f <;> cases e
  name t ht := by
    simp only [RCmd.tcmd, Option.some.injEq] at ht
    subst ht
    exact hname
  after p hp := by
    simp only [RCmd.tcmd, List.mem_map] at hp
    obtain ⟨f, hf, rfl⟩ := hp
    cases f with
    | redir r =>
      have : r ∈ c.redirs := List.mem_append_right _ (by
        have : ∀ fs : List Back, .redir r ∈ fs → r ∈ backRedirs fs := by
          intro fs
          induction fs with
          | nil => simp
          | cons g fs ih =>
            intro hm
            rcases List.mem_cons.1 hm with e | hm2
            · rw [← e]; simp [backRedirs]
            · cases g <;> simp [backRedirs, ih hm2]
        exact this _ hf)
      exact Redir.part_ok (hredirs r this)
    | arg t v =>
      have : (t, v) ∈ backArgs c.back := by
        have : ∀ fs : List Back, .arg t v ∈ fs → (t, v) ∈ backArgs fs := by
          intro fs
          induction fs with
          | nil => simp
          | cons g fs ih =>
            intro hm
            rcases List.mem_cons.1 hm with e | hm2
            · rw [← e]; simp [backArgs]
            · cases g <;> simp [backArgs, ih hm2]
        exact this _ hf
      exact htyped _ this
  some := by simp [RCmd.tcmd]

theorem RCmd.tcmd_ok {c : RCmd} {s : Sh} (h : c.Ok s) : c.tcmd.Ok :=
  RCmd.tcmd_ok' h.redirs (fun a ha => ⟨(h.assigns a ha).1, (h.assigns a ha).2.1⟩) h.name h.typed

theorem RCmd.parse {c : RCmd} {s : Sh} (h : c.Ok s) :
    Rsh.parse c.text = some (some [.mk none none (.mk false [c.ext.command] false)]) := by
  unfold RCmd.text
  rw [parse_tline (TCmd.line_ok (RCmd.tcmd_ok h)), ← RCmd.command_ext]
  rfl

/-- The redirections that are applied: those after the name only if there is an argument. -/
def Spec.RCmd.applied (c : RCmd) : List Redir :=
  frontRedirs c.front ++ if backArgs c.back = [] then [] else backRedirs c.back

theorem redirected_append (t : Int → Option FdE) (a b : List Redir) :
    redirected t (a ++ b) = redirected (redirected t a) b := by
  induction a generalizing t with
  | nil => rfl
  | cons r a ih => exact ih _

/-- What the child does before it turns into the program. -/
theorem RCmd.prefixSuffix (w : World) {c : RCmd} {s : Sh} (h : c.Ok s) {x : Sh}
    (hstd : ∀ i : Nat, i < 3 → x.fds.has i = true) (hu : Uniq x.fds)
    (ho : ∀ r ∈ c.applied, ∀ tr, w.openOk (tr ++ x.trace) r.op r.file = true) :
    ∃ y, evalPrefixSuffix w c.ext.proc.2 x = (.ok (), y) ∧
      y = { x with
        fds := y.fds, env := y.env
        trace := (c.applied.map fun r => Event.opened r.op r.file).reverse ++ x.trace } ∧
      Uniq y.fds ∧ (∀ fd, effFd y.fds fd = redirected (effFd x.fds) c.applied fd) ∧
      ∀ z, y.env.get z = (lastAssigned z ((frontAssigns c.front).map cutValue)).or (x.env.get z) := by
  have hr1 : ∀ r ∈ frontRedirs c.front, r.op ≠ .clobber := fun r hr =>
    (h.redirs r (List.mem_append_left _ hr)).1
  have hr2 : ∀ r ∈ (if backArgs c.back = [] then [] else backRedirs c.back), r.op ≠ .clobber := fun r hr =>
    (h.redirs r (List.mem_append_right _ (by split at hr <;> simp_all))).1
  obtain ⟨y1, a1, a2, a3, a4, a5⟩ := evalRedirects_run w _ hr1 hstd hu
    (fun r hr tr => ho r (List.mem_append_left _ hr) tr)
  obtain ⟨env, b1, b2⟩ := evalAssignments_run (frontAssigns c.front) h.assigns y1
  have htr : y1.trace = ((frontRedirs c.front).map fun r => Event.opened r.op r.file).reverse ++ x.trace := by rw [a2]
  obtain ⟨y2, d1, d2, d3, d4, d5⟩ := evalRedirects_run w _ hr2 (x := { y1 with env }) a3 a4
    (fun r hr tr => by
      show w.openOk (tr ++ y1.trace) r.op r.file = true
      rw [htr, ← List.append_assoc]
      exact ho r (List.mem_append_right _ hr) _)
  have hb : ∀ v, (if backArgs c.back = [] then [] else (backRedirs c.back).map Redir.io) = v →
      (if backArgs c.back = [] then [] else backRedirs c.back).map Redir.io = v := by
    rintro v rfl; split <;> rfl
  refine ⟨y2, ?_, ?_, d4, ?_, ?_⟩
  · unfold evalPrefixSuffix
    have hpre : c.ext.proc.2.pre = if c.front = [] then none else some (⟨(frontRedirs c.front).map Redir.io,
        (frontAssigns c.front).map assignText⟩ : Prefix) := rfl
    have hsuf : c.ext.proc.2.suffix = some ⟨if c.ext.words = [] then [] else (backRedirs c.back).map Redir.io,
        c.ext.words.map Prod.snd⟩ := rfl
    have hgo : evalRedirects w (if c.ext.words = [] then [] else (backRedirs c.back).map Redir.io) { y1 with env } =
        (.ok (), y2) := by
      rw [show c.ext.words = backArgs c.back from List.append_nil _, ← hb _ rfl]
      exact d1
    rw [hpre, hsuf]
    by_cases hf : c.front = []
    · rw [hf] at a1 b1
      have e1 : x = y1 := (Prod.mk.inj a1).2
      have e2 : y1 = { y1 with env } := (Prod.mk.inj b1).2
      rw [← e2, ← e1] at hgo
      rw [if_pos hf]
      simpa using hgo
    · rw [if_neg hf]
      simp only
      rw [run_bind_ok a1, run_bind_ok b1]
      exact hgo
  · rw [d2, a2]
    simp [RCmd.applied]
  · intro fd
    rw [d5, RCmd.applied, redirected_append, ← show effFd y1.fds = _ from funext a5]
  · intro z
    rw [show y2.env = env by rw [d2], b2, show y1.env = x.env by rw [a2]]

theorem KidOk.rcmd {w : World} {rec : List AndOr → M Int} {b : Bool} {id : Nat} {inp out : Option Nat}
    {s : Sh} {c : RCmd} {kid : Kid} (h : KidOk w rec b id inp out s c.ext.proc kid) {s0 : Sh} (hok : c.Ok s0)
    (hf : s.ctx.isFunction c.name = false) (hu : Uniq s.fds) (hstd : ∀ i : Nat, i < 3 → s.fds.has i = true)
    (ho : ∀ r ∈ c.applied, ∀ tr, w.openOk (tr ++ s.trace) r.op r.file = true)
    {file : Str} (hrun : ∀ tr, Runnable w s (tr ++ s.trace) c.name file) :
    ∃ img : ExecImage, kid.2 = (.exec img, c.applied.map fun r => Event.opened r.op r.file) ∧ img.path = file ∧
      img.argv = c.argv ∧ Launched s img ∧ img.ownGroup = (b || s.ownGroup) ∧
      (∀ y, img.env.get y = (lastAssigned y ((frontAssigns c.front).map cutValue)).or (s.env.get y)) ∧
      ∀ fd, img.fds.get fd =
        redirected (fun fd => (stageFd s.fds inp out fd).filter fun e => !e.cloexec) c.applied fd := by
  obtain ⟨x, hx, -, he, hev⟩ := h
  obtain ⟨jc, np, tr, ex⟩ := hx.rest
  have hctx : x.ctx = s.ctx := by rw [ex]
  have henv : x.env = s.env := by rw [ex]
  have htr : x.trace = tr ++ s.trace := by rw [ex]
  have hog : x.ownGroup = (b || s.ownGroup) := by rw [ex]
  have hux := hx.uniq hu
  have hstdx : ∀ i : Nat, i < 3 → x.fds.has i = true := by
    intro i hi
    have := hstd i hi
    unfold FdTable.has at this ⊢
    rw [hx.fds]
    unfold stageFd
    (repeat' split) <;> first | rfl | exact this
  obtain ⟨y, h1, h2, h3, h4, h5⟩ := RCmd.prefixSuffix w hok hstdx hux (fun r hr tr' => by
    rw [htr, ← List.append_assoc]; exact ho r hr _)
  have hyc : y.ctx = s.ctx := by rw [h2]; exact hctx
  have hyt : y.trace = (c.applied.map fun r => Event.opened r.op r.file).reverse ++ tr ++ s.trace := by
    rw [h2, htr, List.append_assoc]
  have hR : Runnable w y y.trace c.ext.proc.1.argv0 file := by
    obtain ⟨⟨path, g1, g2⟩, g3, g4⟩ := hrun ((c.applied.map fun r => Event.opened r.op r.file).reverse ++ tr)
    refine ⟨⟨path, ?_, by rw [hyt]; exact g2⟩, by rw [hyt]; exact g3, g4⟩
    unfold pathOf at g1 ⊢
    rw [hyc]
    exact g1
  have hb := childBody_exec (rec := rec) (p := c.ext.proc.1) h1 (by rw [hyc]; exact hf) hR
  rw [hb] at he hev
  cases he' : kid.2 with
  | mk en evs =>
    rw [he'] at he hev
    simp only [childEnd, Option.some.injEq] at he
    refine ⟨execImage (removeHandlers y).2 file c.argv y.env, ?_, rfl, rfl,
      launched_of (show y.cwd = s.cwd by rw [h2]; show x.cwd = _; rw [ex])
        (show y.disp = s.disp by rw [h2]; show x.disp = _; rw [ex]), ?_, fun z => ?_, fun fd => ?_⟩
    · have hev' : evs = newEvents x.trace y.trace := hev
      have hevs : evs = c.applied.map fun r => Event.opened r.op r.file := by
        rw [hev', show y.trace = (c.applied.map fun r => Event.opened r.op r.file).reverse ++ x.trace by rw [h2]]
        rw [newEvents_append, List.reverse_reverse]
      rw [hevs, ← he]
      have : c.ext.proc.1.argv = c.argv := by simp [Ext.proc, Ext.argv, RCmd.ext, RCmd.argv, Ext.words]
      rw [this]
    · show y.ownGroup = _
      rw [h2]; exact hog
    · show y.env.get z = _
      rw [h5, henv]
    · show FdTable.get (y.fds.filter fun p => !p.2.cloexec) fd = _
      rw [get_filter h3]
      show effFd y.fds fd = _
      rw [h4]
      congr 1
      funext fd
      unfold effFd
      rw [hx.fds]

/-- A line with one external command with redirections and assignments. -/
theorem rcmd_program {w : World} (hw : Resources w) (n : Nat) {s : Sh} (hp : AtPrompt w s) {c : RCmd}
    (hok : c.Ok s) (ho : ∀ r ∈ c.applied, ∀ tr, w.openOk (tr ++ s.trace) r.op r.file = true) {file : Str}
    (hrun : ∀ tr, Runnable w s (tr ++ s.trace) c.name file) :
    ∃ pid img, Happened s (interactiveLine w (n + 1) c.text s).2
        [.spawn pid (.exec img) (c.applied.map fun r => .opened r.op r.file)] ∧
      img.path = file ∧ img.argv = c.argv ∧
      (∀ y, img.env.get y = (lastAssigned y ((frontAssigns c.front).map cutValue)).or (s.env.get y)) ∧
      ∀ fd, chanOf img fd = match lastOn fd c.applied with
        | some r => some (.file r.op r.file)
        | none => ownChan fd := by
  have hfds := AtPrompt_resources_fds hw hp
  obtain ⟨kids, hk, hc⟩ := line_children hw n [c.ext] (by simp) false false (by simpa using RCmd.ext_ok hok)
    (by rw [hfds]; exact stdTable_std) (RCmd.parse hok) (TLine.text_ne (TCmd.line_ok (RCmd.tcmd_ok hok)))
  have hl := hk.length
  rcases kids with _ | ⟨kid, _ | ⟨kid', kids⟩⟩
  · simp at hl
  · have hkid := hk.kid 0 c.ext.proc kid rfl rfl
    obtain ⟨img, hi, h1, h2, -, -, h3, h4⟩ := KidOk.rcmd hkid hok hok.function
      (by show Uniq s.fds; rw [hfds]; exact uniq_stdTable)
      (by intro i hi; show s.fds.has i = true; rw [hfds]; exact stdTable_std.std i hi) ho
      (fun tr => ⟨(hrun tr).path, (hrun tr).exec, (hrun tr).nul⟩)
    refine ⟨kid.1, img, ?_, h1, h2, h3, fun fd => ?_⟩
    · have : kid.event = .spawn kid.1 (.exec img) (c.applied.map fun r => .opened r.op r.file) := by
        unfold Kid.event; rw [hi]
      rw [← this]
      exact hc
    · unfold chanOf
      rw [h4, redirected_eq]
      cases lastOn fd c.applied with
      | some r => rfl
      | none =>
        show (((stageFd s.fds (inPipe s.nextPipe 0) (outPipe s.nextPipe 0 1) fd).filter _)).map _ = _
        rw [hfds]
        show ((stageFd stdTable none none fd).filter _).map _ = _
        rw [stdTable_filter]
        show (stdTable.get fd).map _ = _
        unfold ownChan stdTable FdTable.get
        by_cases h0 : fd = 0
        · subst h0; rfl
        by_cases h1 : fd = 1
        · subst h1; rfl
        by_cases h2 : fd = 2
        · subst h2; rfl
        have e0 : (fd == 0) = false := by simpa using h0
        have e1 : (fd == 1) = false := by simpa using h1
        have e2 : (fd == 2) = false := by simpa using h2
        simp [List.lookup, e0, e1, e2, h0, h1, h2]
  · simp at hl

end Rsh
