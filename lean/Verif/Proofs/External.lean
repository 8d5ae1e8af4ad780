import Verif.Proofs.Expand
import Verif.Proofs.Foreground
import Verif.Proofs.Static
import Verif.Spec.External

/-!
# External commands from the line to the program
-/

namespace Rsh

open Spec

/-! ## Expansion -/

theorem isBuiltin_iff (n : Str) : isBuiltin n = true ↔ n ∈ builtins := by
  unfold isBuiltin
  rw [decide_eq_true_iff]
  rfl

theorem isBuiltin_false {n : Str} : isBuiltin n = false ↔ n ∉ builtins := by
  rw [← isBuiltin_iff]; simp

/-- The process made for an external command, and the command after expansion. -/
def Spec.Ext.proc (e : Ext) : Process × SimpleCommand :=
  ({ pid := -1, argv := e.argv, argv0 := e.name, cmd := e.name, status := none },
   ⟨e.pre, e.name, some ⟨if e.words = [] then [] else e.redirs, e.words.map Prod.snd⟩⟩)

theorem evalCommand_ext (w : World) (rec : List AndOr → M Int) {e : Ext} {s : Sh} (h : e.Ok s) :
    evalCommand w rec e.command s = (.ok (some e.proc), s) := by
  unfold Ext.command evalCommand evalSimple
  simp only
  rw [if_neg (by rw [isBuiltin_iff]; exact h.external)]
  have hexp : expandCommand w rec ⟨e.pre, e.typed,
      if e.args = [] ∧ e.redirs = [] then none else some ⟨e.redirs, e.args.map fun a => a.1.text⟩⟩ s =
      (.ok e.proc.2, s) := by
    rcases h.alias with ⟨h1, h2, h3⟩ | ⟨v, h1, h2⟩
    · have ha := aliasLookup_none (c := ⟨e.pre, e.typed,
        if e.args = [] ∧ e.redirs = [] then none else some ⟨e.redirs, e.args.map fun a => a.1.text⟩⟩) h1
      have hw : e.words = e.args := by unfold Ext.words; rw [h3, List.append_nil]
      rw [expandCommand_means w rec (name := e.name) h.plain e.words (by rw [ha, h2]) ?_ h.assign h.args]
      · unfold Ext.proc
        by_cases hc : e.args = [] ∧ e.redirs = []
        · simp [hc]
        · simp [hc]
      · by_cases hc : e.args = [] ∧ e.redirs = []
        · simp [hc, hw]
        · simp [hc, hw]
    · have ha := aliasLookup_some (c := ⟨e.pre, e.typed,
        if e.args = [] ∧ e.redirs = [] then none else some ⟨e.redirs, e.args.map fun a => a.1.text⟩⟩) h1 h2
      by_cases hc : e.args = [] ∧ e.redirs = []
      · rw [if_pos hc] at ha ⊢
        rw [expandCommand_means w rec h.plain e.words ha ?_ h.assign h.args]
        · unfold Ext.proc
          simp [hc]
        · unfold Ext.words
          simp [hc]
      · rw [if_neg hc] at ha ⊢
        rw [expandCommand_means w rec h.plain e.words ha ?_ h.assign h.args]
        · unfold Ext.proc
          simp
        · unfold Ext.words
          simp
  rw [run_bind_ok hexp]
  have harg : argvOf e.proc.2 = some e.argv := by
    unfold argvOf
    show (if e.argv.any (hasChar '\x00') then none else some e.argv) = _
    rw [if_neg]
    rw [List.any_eq_true]
    rintro ⟨v, hv, hn⟩
    exact h.nul v hv (hasChar_iff.1 hn)
  rw [harg]
  rfl

theorem evalCommands_ext (w : World) (rec : List AndOr → M Int) {es : List Ext} {s : Sh}
    (h : ∀ e ∈ es, e.Ok s) :
    evalCommands w rec (es.map Ext.command) s = (.ok (es.map Ext.proc), s) := by
  induction es with
  | nil => rfl
  | cons e es ih =>
    rw [List.map_cons]
    unfold evalCommands
    rw [run_bind_ok (evalCommand_ext w rec (h e List.mem_cons_self))]
    simp only
    rw [run_bind_ok (ih fun e he => h e (List.mem_cons_of_mem _ he))]
    rfl

theorem Ext.plain_command {e : Ext} {s : Sh} (h : e.Ok s) : Plain e.command :=
  ⟨_, rfl, isBuiltin_false.2 h.external⟩

/-! ## `PATH` -/

theorem lists_iff {path : Str} {ds : List Str} : Lists path ds ↔ splitOn ':' path = ds := by
  constructor
  · rintro ⟨h1, h2, rfl⟩
    induction ds with
    | nil => exact absurd rfl h1
    | cons d ds ih =>
      cases ds with
      | nil => simpa [List.intercalate] using splitOn_none _ _ (h2 d List.mem_cons_self)
      | cons e es =>
        have : List.intercalate [':'] (d :: e :: es) = d ++ ':' :: List.intercalate [':'] (e :: es) := by
          simp [List.intercalate]
        rw [this, splitOn_append _ _ _ (h2 d List.mem_cons_self),
          ih (by simp) fun x hx => h2 x (List.mem_cons_of_mem _ hx)]
  · rintro rfl
    refine ⟨splitOn_ne_nil _ _, ?_, ?_⟩
    · induction path with
      | nil => simp [splitOn]
      | cons c cs ih =>
        unfold splitOn
        split
        · simpa using ih
        · next hc =>
          cases hs : splitOn ':' cs with
          | nil => exact absurd hs (splitOn_ne_nil _ _)
          | cons x xs =>
            rw [hs] at ih
            simp only [List.mem_cons, forall_eq_or_imp] at ih ⊢
            exact ⟨by simp [Ne.symm hc, ih.1], ih.2⟩
    · induction path with
      | nil => simp [splitOn, List.intercalate]
      | cons c cs ih =>
        unfold splitOn
        cases hs : splitOn ':' cs with
        | nil => exact absurd hs (splitOn_ne_nil _ _)
        | cons x xs =>
          rw [hs] at ih
          split
          · next hc =>
            rw [ih, hc]
            simp [List.intercalate]
          · rw [ih]
            cases xs <;> simp [List.intercalate]

theorem searchPath_some (isFile : Str → Bool) (name file : Str) (ds : List Str) :
    CtxMgr.searchPath isFile name ds = some file ↔
      ∃ before dir after, ds = before ++ dir :: after ∧ file = dir ++ '/' :: name ∧
        isFile file = true ∧ ∀ d ∈ before, isFile (d ++ '/' :: name) = false := by
  induction ds with
  | nil => simp [CtxMgr.searchPath]
  | cons d ds ih =>
    unfold CtxMgr.searchPath
    by_cases h : isFile (d ++ '/' :: name) = true
    · simp only [h, if_true, Option.some.injEq]
      constructor
      · rintro rfl
        exact ⟨[], d, ds, rfl, rfl, h, by simp⟩
      · rintro ⟨before, dir, after, e, rfl, h1, h2⟩
        cases before with
        | nil => cases e; rfl
        | cons b bs =>
          cases e
          rw [h2 d List.mem_cons_self] at h
          cases h
    · simp only [h, Bool.false_eq_true, if_false]
      rw [ih]
      constructor
      · rintro ⟨before, dir, after, rfl, e, h1, h2⟩
        refine ⟨d :: before, dir, after, rfl, e, h1, fun d' hd => ?_⟩
        rcases List.mem_cons.1 hd with rfl | hd
        · simpa using h
        · exact h2 d' hd
      · rintro ⟨before, dir, after, e, rfl, h1, h2⟩
        cases before with
        | nil => cases e; exact absurd h1 h
        | cons b bs =>
          cases e
          exact ⟨bs, dir, after, rfl, rfl, h1, fun d' hd => h2 d' (List.mem_cons_of_mem _ hd)⟩

theorem searchPath_none (isFile : Str → Bool) (name : Str) (ds : List Str) :
    CtxMgr.searchPath isFile name ds = none ↔ ∀ d ∈ ds, isFile (d ++ '/' :: name) = false := by
  induction ds with
  | nil => simp [CtxMgr.searchPath]
  | cons d ds ih =>
    unfold CtxMgr.searchPath
    by_cases h : isFile (d ++ '/' :: name) = true
    · simp [h]
    · simp only [h, Bool.false_eq_true, if_false]
      rw [ih]
      simp [h]

theorem searchPath_first (isFile : Str → Bool) (path name file : Str) :
    CtxMgr.searchPath isFile name (splitOn ':' path) = some file ↔ FirstOnPath isFile path name file := by
  rw [searchPath_some]
  simp only [FirstOnPath, lists_iff]

theorem searchPath_missing (isFile : Str → Bool) (path name : Str) :
    CtxMgr.searchPath isFile name (splitOn ':' path) = none ↔
      ∀ ds, Lists path ds → ∀ d ∈ ds, isFile (d ++ '/' :: name) = false := by
  rw [searchPath_none]
  simp only [lists_iff, forall_eq']

theorem lookupCommand_path (s : Sh) (isFile : Str → Bool) (name : Str) :
    s.ctx.lookupCommand isFile name =
      (pathOf s).map fun path => CtxMgr.searchPath isFile name (splitOn ':' path) := by
  unfold CtxMgr.lookupCommand pathOf CtxMgr.envCtx
  cases s.ctx.stack.getLast? with
  | none => rfl
  | some id =>
    simp only [Option.bind_some]
    cases (s.ctx.heap id).getVar (cs!"PATH") <;> rfl

theorem lookupCommandM_run (w : World) (name : Str) (s : Sh) {path : Str} (h : pathOf s = some path) :
    lookupCommandM w name s = (.ok (CtxMgr.searchPath (w.isFile s.trace) name (splitOn ':' path)), s) := by
  unfold lookupCommandM
  rw [run_getS_bind, lookupCommand_path, h]
  rfl

/-! ## The child -/

theorem childBody_exec {w : World} {rec : List AndOr → M Int} {p : Process} {c : SimpleCommand} {x y : Sh}
    (h : evalPrefixSuffix w c x = (.ok (), y)) (hf : y.ctx.isFunction c.name = false) {file : Str}
    (hr : Runnable w y y.trace p.argv0 file) :
    childBody w rec p c x =
      (.execed (execImage (removeHandlers y).2 file p.argv y.env), (removeHandlers y).2) := by
  obtain ⟨⟨path, hp, hfirst⟩, hx, hn⟩ := hr
  unfold childBody
  rw [run_bind_ok h, run_getS_bind, if_neg (by rw [hf]; simp)]
  have e : (do
      let s ← getS
      tempExecve w p.argv0 p.argv s.env : M Unit) y =
      (.execed (execImage (removeHandlers y).2 file p.argv y.env), (removeHandlers y).2) := by
    rw [run_getS_bind]
    unfold tempExecve
    rw [run_bind_ok (show removeHandlers y = (.ok (), (removeHandlers y).2) from rfl),
      run_bind_ok (lookupCommandM_run w _ (removeHandlers y).2 (path := path) hp)]
    rw [show (removeHandlers y).2.trace = y.trace from rfl]
    rw [(searchPath_first _ _ _ _).2 hfirst]
    simp only
    rw [if_neg (by rw [hasChar_iff]; exact hn), run_getS_bind]
    rw [if_pos (show w.execOk (removeHandlers y).2.trace file = true from hx)]
    rfl
  rw [run_bind, run_tryE, e]

theorem childBody_missing {w : World} {rec : List AndOr → M Int} {p : Process} {c : SimpleCommand} {x y : Sh}
    (h : evalPrefixSuffix w c x = (.ok (), y)) (hf : y.ctx.isFunction c.name = false) {path : Str}
    (hp : pathOf y = some path)
    (hm : ∀ d ∈ splitOn ':' path, w.isFile y.trace (d ++ '/' :: p.argv0) = false) :
    childBody w rec p c x = (.exit 1, { (removeHandlers y).2 with
      trace := .eprint ((y.fds.get 2).map FdE.chan) (p.cmd ++ cs!": Command not found\n" ++ ['\n']) :: y.trace }) := by
  unfold childBody
  rw [run_bind_ok h, run_getS_bind, if_neg (by rw [hf]; simp)]
  have e : (do
      let s ← getS
      tempExecve w p.argv0 p.argv s.env : M Unit) y =
      (.err (p.argv0 ++ cs!": Command not found"), (removeHandlers y).2) := by
    rw [run_getS_bind]
    unfold tempExecve
    rw [run_bind_ok (show removeHandlers y = (.ok (), (removeHandlers y).2) from rfl),
      run_bind_ok (lookupCommandM_run w _ (removeHandlers y).2 (path := path) hp)]
    rw [show (removeHandlers y).2.trace = y.trace from rfl]
    rw [(searchPath_none _ _ _).2 hm]
    rfl
  rw [run_bind_ok (run_tryE_err e)]
  rfl

/-- A command without prefix and redirections. -/
theorem evalPrefixSuffix_none (w : World) {c : SimpleCommand} (hp : c.pre = none)
    (hs : ∀ sf, c.suffix = some sf → sf.ioRedirect = []) (x : Sh) : evalPrefixSuffix w c x = (.ok (), x) := by
  obtain ⟨pre, name, suffix⟩ := c
  cases hp
  cases suffix with
  | none => rfl
  | some sf =>
    have := hs sf rfl
    unfold evalPrefixSuffix
    simp only [this]
    rfl

theorem get_filter {t : FdTable} (h : Uniq t) (fd : Int) :
    FdTable.get (t.filter fun p => !p.2.cloexec) fd = (FdTable.get t fd).filter fun e => !e.cloexec := by
  induction t with
  | nil => rfl
  | cons p t ih =>
    obtain ⟨fd', e⟩ := p
    have hu : Uniq t := (List.nodup_cons.1 h).2
    have hn : FdTable.get t fd' = none := by
      have := (List.nodup_cons.1 h).1
      rw [← FdTable.has_iff] at this
      exact not_has_get (by simpa using this)
    rw [List.filter_cons]
    by_cases hc : e.cloexec = true
    · simp only [hc, Bool.not_true, Bool.false_eq_true, if_false]
      rw [ih hu, get_cons]
      by_cases hf : fd = fd'
      · subst hf
        rw [if_pos rfl, hn]
        simp [Option.filter, hc]
      · rw [if_neg hf]
    · simp only [hc, Bool.not_false, if_true]
      rw [get_cons, get_cons, ih hu]
      by_cases hf : fd = fd'
      · subst hf
        rw [if_pos rfl, if_pos rfl]
        simp [Option.filter, hc]
      · rw [if_neg hf, if_neg hf]

theorem newEvents_self (t : List Event) : newEvents t t = [] := by
  unfold newEvents
  simp

theorem newEvents_cons (e : Event) (t : List Event) : newEvents t (e :: t) = [e] := by
  unfold newEvents
  simp

theorem newEvents_append (l t : List Event) : newEvents t (l ++ t) = l.reverse := by
  unfold newEvents
  simp

theorem launched_of {s x : Sh} (h1 : x.cwd = s.cwd) (h2 : x.disp = s.disp) {file : Str} {argv : List Str}
    {env : AMap Str} : Launched s (execImage (removeHandlers x).2 file argv env) where
  unmasked := rfl
  cwd := h1
  disp g := by
    show (if (if handledSignals.contains g then Disp.dfl else x.disp g) = .catch then Disp.dfl else
      (if handledSignals.contains g then Disp.dfl else x.disp g)) = _
    rw [h2]
    by_cases h : g ∈ handledSignals
    · have h' : g ∈ [2, 3, 15, 17, 20, 21, 22] := by
        simp only [handledSignals, SIGINT, SIGQUIT, SIGTERM, SIGTSTP, SIGTTIN, SIGTTOU, SIGCHLD, List.mem_cons,
          List.not_mem_nil, or_false] at h ⊢
        omega
      simp [h, h']
    · have h' : g ∉ [2, 3, 15, 17, 20, 21, 22] := by
        simp only [handledSignals, SIGINT, SIGQUIT, SIGTERM, SIGTSTP, SIGTTIN, SIGTTOU, SIGCHLD, List.mem_cons,
          List.not_mem_nil, or_false] at h ⊢
        omega
      cases hd : s.disp g <;> simp [h, h']

/-- The program a member of a pipeline turns into. -/
theorem KidOk.image {w : World} {rec : List AndOr → M Int} {b : Bool} {id : Nat} {inp out : Option Nat}
    {s : Sh} {e : Ext} {kid : Kid} (h : KidOk w rec b id inp out s e.proc kid)
    (hf : s.ctx.isFunction e.name = false) (hp : e.pre = none) (hr : e.redirs = []) (hu : Uniq s.fds)
    {file : Str} (hrun : ∀ tr, Runnable w s (tr ++ s.trace) e.name file) :
    ∃ img : ExecImage, kid.2 = (.exec img, []) ∧ img.path = file ∧ img.argv = e.argv ∧ img.env = s.env ∧
      Launched s img ∧ img.ownGroup = (b || s.ownGroup) ∧
      ∀ fd, img.fds.get fd = (stageFd s.fds inp out fd).filter fun e => !e.cloexec := by
  obtain ⟨x, hx, -, he, hev⟩ := h
  obtain ⟨jc, np, tr, ex⟩ := hx.rest
  have hctx : x.ctx = s.ctx := by rw [ex]
  have henv : x.env = s.env := by rw [ex]
  have htr : x.trace = tr ++ s.trace := by rw [ex]
  have hog : x.ownGroup = (b || s.ownGroup) := by rw [ex]
  have hps := evalPrefixSuffix_none w (c := e.proc.2) hp (fun sf hsf => by
    cases hsf
    show (if e.words = [] then [] else e.redirs) = []
    rw [hr]; simp) x
  have hR : Runnable w x x.trace e.proc.1.argv0 file := by
    obtain ⟨⟨path, h1, h2⟩, h3, h4⟩ := hrun tr
    refine ⟨⟨path, ?_, by rw [htr]; exact h2⟩, by rw [htr]; exact h3, h4⟩
    unfold pathOf at h1 ⊢
    rw [hctx]
    exact h1
  have hb := childBody_exec (rec := rec) (p := e.proc.1) hps (by rw [hctx]; exact hf) hR
  rw [hb] at he hev
  cases he' : kid.2 with
  | mk en evs =>
    rw [he'] at he hev
    simp only [childEnd, Option.some.injEq] at he
    refine ⟨execImage (removeHandlers x).2 file e.argv x.env, ?_, rfl, rfl, henv,
      launched_of (show x.cwd = s.cwd by rw [ex]) (show x.disp = s.disp by rw [ex]), hog, fun fd => ?_⟩
    · rw [← he]
      congr 1
      rw [show evs = _ from hev]
      exact newEvents_self _
    · show FdTable.get (x.fds.filter fun p => !p.2.cloexec) fd = _
      rw [get_filter (hx.uniq hu), hx.fds]

/-! ## Lines -/

theorem interactiveLine_one {w : World} {n : Nat} {input : Str} {pl : Pipeline}
    (h : parse input = some (some [.mk none none pl])) {s s' : Sh} {code : Int} (hne : input ≠ [])
    (he : evalPipeline w (evalFuel w n) pl s = (.ok code, s')) :
    interactiveLine w (n + 1) input s = (.ok (), s') := by
  have e1 : evalTop w (n + 1) (some [.mk none none pl]) s = (.ok code, s') := by
    show evalListFrom w (evalFuel w n) (-1) [.mk none none pl] s = _
    unfold evalListFrom evalAndOr
    rw [run_bind_ok he]
    rfl
  unfold interactiveLine
  rw [if_neg hne, h]
  simp only
  rw [run_bind_ok (run_tryE_ok e1)]
  rfl

theorem line_ne_nil {b0 : Str} {w0 : Typed} {l : List (Str × Typed)} {trail : Str} (h : w0.text ≠ []) :
    line ((b0, w0.text) :: l.map fun p => (p.1, p.2.text)) trail ≠ [] := by
  simp [line, h]

end Rsh
