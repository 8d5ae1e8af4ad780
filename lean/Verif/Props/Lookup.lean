import Verif.Model.Completion
import Verif.Proofs.Start
import Verif.Proofs.Prompt
import Verif.Proofs.Call

/-!
# Properties C73, C74, C84: finding commands
-/

namespace Rsh

open Spec

/-! ## C73 -/

/-- A member of a pipeline whose program is not found. -/
theorem KidOk.missing {w : World} {rec : List AndOr → M Int} {b : Bool} {id : Nat} {inp out : Option Nat}
    {s : Sh} {e : Ext} {kid : Kid} (h : KidOk w rec b id inp out s e.proc kid)
    (hf : s.ctx.isFunction e.name = false) (hp : e.pre = none) (hr : e.redirs = []) {path : Str}
    (hpath : pathOf s = some path)
    (hm : ∀ tr, ∀ ds, Lists path ds → ∀ d ∈ ds, w.isFile (tr ++ s.trace) (d ++ '/' :: e.name) = false) :
    kid.2 = (.exit 1, [.eprint ((stageFd s.fds inp out 2).map FdE.chan)
      (e.name ++ cs!": Command not found\n" ++ ['\n'])]) := by
  obtain ⟨x, hx, -, he, hev⟩ := h
  obtain ⟨jc, np, tr, ex⟩ := hx.rest
  have hctx : x.ctx = s.ctx := by rw [ex]
  have htr : x.trace = tr ++ s.trace := by rw [ex]
  have hps := evalPrefixSuffix_none w (c := e.proc.2) hp (fun sf hsf => by
    cases hsf
    show (if e.words = [] then [] else e.redirs) = []
    rw [hr]; simp) x
  have hpx : pathOf x = some path := by
    unfold pathOf at hpath ⊢
    rw [hctx]
    exact hpath
  have hb := childBody_missing (rec := rec) (p := e.proc.1) hps (by rw [hctx]; exact hf) hpx (by
    rw [htr]
    exact hm tr _ (lists_iff.2 rfl))
  rw [hb] at he hev
  cases he' : kid.2 with
  | mk en evs =>
    rw [he'] at he hev
    simp only [childEnd, Option.some.injEq] at he
    rw [← he, show evs = _ from hev, hx.fds]
    congr 1
    exact newEvents_cons _ _

/-- C73 at the level of the search: with `PATH` set in the outermost context, a name is resolved to `file`
exactly when `file` is the file of that name in the first directory of `PATH` that has one, and to nothing
exactly when no directory has one; the search changes nothing. -/
theorem C73_search (w : World) (s : Sh) (name path : Str) (hp : pathOf s = some path) :
    ∃ r, lookupCommandM w name s = (.ok r, s) ∧
      (∀ file, r = some file ↔ FirstOnPath (w.isFile s.trace) path name file) ∧
      (r = none ↔ ∀ ds, Lists path ds → ∀ d ∈ ds, w.isFile s.trace (d ++ '/' :: name) = false) :=
  ⟨_, lookupCommandM_run w name s hp, fun _ => searchPath_first .., searchPath_missing ..⟩

/-- C73, the part that holds: at every prompt, a line with an external command runs the file of that name
in the first directory of the outermost context's `PATH` that has one.  Missing: that `PATH` is the value
`$PATH` has, see the counterexample. -/
theorem C73_found_partial (w : World) (hw : Resources w) (n : Nat) (s : Sh) (hp : AtPrompt w s) (c : CmdLine)
    (hok : c.Ok s) (file path : Str) (hpath : pathOf s = some path)
    (hfile : ∀ tr, FirstOnPath (w.isFile (tr ++ s.trace)) path c.name file)
    (hexec : ∀ tr, w.execOk (tr ++ s.trace) file = true) (hnul : '\x00' ∉ file) :
    ∃ pid img, Happened s (interactiveLine w (n + 1) c.text s).2 [.spawn pid (.exec img) []] ∧
      img.path = file ∧ img.argv = c.argv := by
  obtain ⟨pid, img, h1, -, h2, h3, -⟩ := cmdLine_program hw n hp hok
    (fun tr => ⟨⟨path, hpath, hfile tr⟩, hexec tr, hnul⟩)
  exact ⟨pid, img, h1, h2, h3⟩

/-- C73, the other half: if no directory of `PATH` has the file, nothing is executed, and the child reports
that on the shell's standard error. -/
theorem C73_missing_partial (w : World) (hw : Resources w) (n : Nat) (s : Sh) (hp : AtPrompt w s) (c : CmdLine)
    (hok : c.Ok s) (path : Str) (hpath : pathOf s = some path)
    (hm : ∀ tr, ∀ ds, Lists path ds → ∀ d ∈ ds, w.isFile (tr ++ s.trace) (d ++ '/' :: c.name) = false) :
    ∃ pid, Happened s (interactiveLine w (n + 1) c.text s).2
      [.spawn pid (.exit 1) [.eprint (some (.orig 2)) (c.name ++ cs!": Command not found\n\n")]] := by
  obtain ⟨h1, h2⟩ := parse_cmdLine hok
  have hfds := AtPrompt_resources_fds hw hp
  obtain ⟨kids, hk, hc⟩ := line_children hw n [c.ext] (by simp) false false (by simpa using hok.ext)
    (by rw [hfds]; exact stdTable_std) h1 h2
  have hl := hk.length
  rcases kids with _ | ⟨kid, _ | ⟨kid', kids⟩⟩
  · simp at hl
  · have hkid := hk.kid 0 c.ext.proc kid rfl rfl
    have := KidOk.missing hkid hok.ext.function rfl rfl (path := path) hpath hm
    refine ⟨kid.1, ?_⟩
    have e : kid.event = .spawn kid.1 (.exit 1) [.eprint (some (.orig 2)) (c.name ++ cs!": Command not found\n\n")] := by
      unfold Kid.event
      rw [this]
      show Event.spawn _ _ [.eprint ((FdTable.get s.fds 2).map FdE.chan) _] = _
      rw [hfds]
      rw [show (stdTable.get 2).map FdE.chan = some (.orig 2) from rfl]
      simp [CmdLine.ext]
    rw [← e]
    exact hc
  · simp at hl

/-- C73 fails when `PATH` has been unset: a `PATH` assigned
afterwards is not used, and every external command crashes its child. -/
theorem C73_counterexample :
    valueOf (demo [cs!"unset PATH", cs!"PATH=/bin", cs!"ls"]) (cs!"PATH") = some (cs!"/bin") ∧
    (match (demo [cs!"unset PATH", cs!"PATH=/bin", cs!"ls"]).trace with
     | .spawn _ (.panic _) _ :: _ => true
     | _ => false) = true := by decide +kernel

/-- The file `/bin/ls` is found, `/bin/nope` is not. -/
example : (∃ pid img, Happened (atPrompt []) (interactiveLine (demoWorld []) 20 (cs!"  ls") (atPrompt [])).2
      [.spawn pid (.exec img) []] ∧ img.path = cs!"/bin/ls") ∧
    ∃ pid, Happened (atPrompt []) (interactiveLine (demoWorld []) 20 (cs!"nope") (atPrompt [])).2
      [.spawn pid (.exit 1) [.eprint (some (.orig 2)) (cs!"nope: Command not found\n\n")]] := by
  have hext : ∀ x, PlainWord x → x ∉ builtins → '\x00' ∉ x → (atPrompt []).aliases.get x = none →
      (atPrompt []).ctx.isFunction x = false → ∀ l, (∀ b ∈ l, Blank b) →
      CmdLine.Ok { lead := l, word := x, args := [] } (atPrompt []) :=
    fun x h1 h2 h3 h4 h5 l hl => ⟨hl, by simp, ⟨by simp, trivial⟩, h1, by simp, h1, h2, .inl ⟨h4, rfl, rfl⟩, h5,
      by simp [CmdLine.ext, Ext.words], by simpa [CmdLine.ext, Ext.argv, Ext.words] using h3, by simp [CmdLine.ext]⟩
  constructor
  · obtain ⟨pid, img, h1, h2, -⟩ := C73_found_partial (demoWorld []) (demo_resources []) 19 (atPrompt [])
      (atPrompt_ok (by decide +kernel)) { lead := cs!"  ", word := cs!"ls", args := [] }
      (hext _ (by decide) (by decide) (by decide) (by decide +kernel) (by decide +kernel) _ (by decide))
      (cs!"/bin/ls") (cs!"/bin") (by decide +kernel)
      (fun tr => ⟨[], cs!"/bin", [], by simp [Lists, List.intercalate], rfl, rfl, by simp⟩) (fun tr => rfl) (by decide)
    exact ⟨pid, img, h1, h2⟩
  · exact C73_missing_partial (demoWorld []) (demo_resources []) 19 (atPrompt [])
      (atPrompt_ok (by decide +kernel)) { word := cs!"nope", args := [] }
      (hext _ (by decide) (by decide) (by decide) (by decide +kernel) (by decide +kernel) _ (by decide))
      (cs!"/bin") (by decide +kernel) (fun tr ds hds d hd => by
        rw [lists_iff, show splitOn ':' (cs!"/bin") = [cs!"/bin"] by decide] at hds
        subst hds
        simp only [List.mem_singleton] at hd
        subst hd
        show (demoWorld []).isFile _ (cs!"/bin/nope") = false
        rfl)

/-! ## C74 -/

/-- C74 fails: a name with a slash is looked for in the directories of `PATH` like any other, and a program
given as `/bin/ls` is the file `/bin//bin/ls`. -/
theorem C74_counterexample :
    (match (demo [cs!"/bin/ls"]).trace with
     | [.spawn _ (.exec img) _] => decide (img.path = cs!"/bin//bin/ls")
     | _ => false) = true := by decide +kernel

/-- C74 fails for all names and all values of `PATH`: the file found never is the name that was given, but
a longer one that begins with a directory of `PATH`. -/
theorem C74_never (w : World) (s s' : Sh) (name file : Str)
    (h : lookupCommandM w name s = (.ok (some file), s')) :
    file ≠ name ∧ ∃ path ds d, pathOf s = some path ∧ Lists path ds ∧ d ∈ ds ∧ file = d ++ '/' :: name := by
  cases hp : pathOf s with
  | none =>
    unfold lookupCommandM at h
    rw [run_getS_bind, lookupCommand_path, hp] at h
    cases (Prod.mk.inj h).1
  | some path =>
    rw [lookupCommandM_run w name s hp] at h
    have h1 := (Prod.mk.inj h).1
    injection h1 with h1
    obtain ⟨before, dir, after, g1, rfl, -, -⟩ := (searchPath_first ..).1 h1
    refine ⟨fun e => ?_, path, _, dir, rfl, g1, by simp, rfl⟩
    have := congrArg List.length e
    simp at this
    omega

/-- C74, the part that holds: an absolute name is run directly, with a second slash in front, if `PATH` has
an empty entry and no earlier entry has a file of that name.  Missing: everything else, by `C74_never`. -/
theorem C74_emptyEntry_partial (w : World) (hw : Resources w) (n : Nat) (s : Sh) (hp : AtPrompt w s) (c : CmdLine)
    (hok : c.Ok s) (path name : Str) (before after : List Str) (hpath : pathOf s = some path)
    (hl : Lists path (before ++ [] :: after)) (hn : c.name = '/' :: name)
    (hb : ∀ tr, ∀ d ∈ before, w.isFile (tr ++ s.trace) (d ++ '/' :: c.name) = false)
    (hfile : ∀ tr, w.isFile (tr ++ s.trace) ('/' :: c.name) = true)
    (hexec : ∀ tr, w.execOk (tr ++ s.trace) ('/' :: c.name) = true) (hnul : '\x00' ∉ name) :
    ∃ pid img, Happened s (interactiveLine w (n + 1) c.text s).2 [.spawn pid (.exec img) []] ∧
      img.path = '/' :: '/' :: name ∧ img.argv = c.argv := by
  rw [hn] at hb hfile hexec
  exact C73_found_partial w hw n s hp c hok _ path hpath
    (fun tr => ⟨before, [], after, hl, by rw [hn]; rfl, hfile tr, by rw [hn]; exact hb tr⟩) hexec (by simpa using hnul)

/-- With `PATH=:/bin`, the absolute name `/bin/ls` is run, as `//bin/ls`, where that is a file. -/
example : ∃ w s c path before after name, Resources w ∧ AtPrompt w s ∧ CmdLine.Ok c s ∧ pathOf s = some path ∧
    Lists path (before ++ [] :: after) ∧ c.name = '/' :: name ∧ (∀ d ∈ before, ∀ tr, w.isFile tr (d ++ '/' :: c.name) = false) ∧
    (∀ tr, w.isFile tr ('/' :: c.name) = true) ∧ (∀ tr, w.execOk tr ('/' :: c.name) = true) ∧ '\x00' ∉ name := by
  let w : World := { demoWorld [] with isFile := fun _ p => decide (p = cs!"//bin/ls") }
  have hs : startUp w 5 [cs!"rsh"] (initSh false 1 2 (cs!"/") [(cs!"PATH", cs!":/bin")] []) =
    (.ok (), (startUp w 5 [cs!"rsh"] (initSh false 1 2 (cs!"/") [(cs!"PATH", cs!":/bin")] [])).2) := by
    obtain ⟨a, ha⟩ := outcome_ok (o := (startUp w 5 [cs!"rsh"] (initSh false 1 2 (cs!"/") [(cs!"PATH", cs!":/bin")] [])).1)
      (by decide +kernel)
    rw [← ha]
  refine ⟨w, _, { word := cs!"/bin/ls", args := [] }, cs!":/bin", [], [cs!"/bin"], cs!"bin/ls",
    ⟨(demo_resources []).pipe, (demo_resources []).fork⟩,
    .start hs, ⟨by simp, by simp, ⟨by simp, trivial⟩, by decide, by simp, by decide, by decide, .inl ⟨by decide +kernel, rfl, rfl⟩,
      by decide +kernel, by simp [CmdLine.ext, Ext.words], by decide, by simp [CmdLine.ext]⟩, by decide +kernel,
    by simp [Lists, List.intercalate], rfl, by simp, fun _ => rfl, fun _ => rfl, by decide⟩

/-! ## C84 -/

theorem startsWith_iff (pre s : Str) : startsWith pre s = true ↔ pre <+: s := by
  induction pre generalizing s with
  | nil => simp [startsWith]
  | cons a pre ih =>
    cases s with
    | nil => simp [startsWith]
    | cons b s => simp [startsWith, List.cons_prefix_cons]

theorem strLe_iff (a b : Str) : strLe a b = true ↔ a ≤ b := by
  induction a generalizing b with
  | nil => simp [strLe]
  | cons x a ih =>
    cases b with
    | nil => simp [strLe]
    | cons y b =>
      rw [strLe, List.cons_le_cons_iff]
      have e : x.toNat < y.toNat ↔ x < y := by
        rw [Char.lt_def, UInt32.lt_iff_toNat_lt]; rfl
      by_cases h : x.toNat < y.toNat
      · simp [h, e.1 h]
      · rw [if_neg h]
        by_cases h2 : x = y
        · subst h2; simp [ih, Char.lt_irrefl]
        · have : ¬ x < y := fun g => h (e.2 g)
          simp [h2, this]

theorem addNames_spec (line : Str) (names : List (Option Str)) (entries : List Str) (hn : entries.Nodup) :
    (addNames line entries names = none ↔ none ∈ names) ∧
    ∀ l, addNames line entries names = some l → l.Nodup ∧ ∀ x, x ∈ l ↔ x ∈ entries ∨ some x ∈ names ∧ line <+: x := by
  induction names generalizing entries with
  | nil =>
    refine ⟨by simp [addNames], fun l h => ?_⟩
    cases h
    exact ⟨hn, by simp⟩
  | cons a names ih =>
    cases a with
    | none => exact ⟨by simp [addNames], fun l h => (nomatch h)⟩
    | some a =>
      rw [addNames]
      have hm : none ∈ some a :: names ↔ none ∈ names := by simp
      rw [hm]
      by_cases h : startsWith line a = true
      · rw [if_neg (by simp [h])]
        have h' := (startsWith_iff _ _).1 h
        by_cases h2 : entries.contains a = true
        · rw [if_pos h2]
          have hmem := List.contains_iff_mem.1 h2
          refine ⟨(ih entries hn).1, fun l hl => ⟨((ih entries hn).2 l hl).1, fun x => ?_⟩⟩
          rw [((ih entries hn).2 l hl).2]
          simp only [List.mem_cons, Option.some.injEq]
          constructor
          · rintro (h | h)
            · exact .inl h
            · exact .inr ⟨.inr h.1, h.2⟩
          · rintro (h | ⟨rfl | h, h3⟩)
            · exact .inl h
            · exact .inl hmem
            · exact .inr ⟨h, h3⟩
        · rw [if_neg h2]
          have hna : a ∉ entries := fun g => h2 (List.contains_iff_mem.2 g)
          have hn' : (entries ++ [a]).Nodup := by
            rw [List.nodup_append]
            exact ⟨hn, by simp, fun x hx y hy e => hna (by simp at hy; rw [← hy, ← e]; exact hx)⟩
          refine ⟨(ih _ hn').1, fun l hl => ⟨((ih _ hn').2 l hl).1, fun x => ?_⟩⟩
          rw [((ih _ hn').2 l hl).2]
          simp only [List.mem_append, List.mem_cons, List.not_mem_nil, or_false, Option.some.injEq]
          constructor
          · rintro ((h | rfl) | h)
            · exact .inl h
            · exact .inr ⟨.inl rfl, h'⟩
            · exact .inr ⟨.inr h.1, h.2⟩
          · rintro (h | ⟨rfl | h, h3⟩)
            · exact .inl (.inl h)
            · exact .inl (.inr rfl)
            · exact .inr ⟨h, h3⟩
      · rw [if_pos (by simp [h])]
        have h' : ¬ line <+: a := fun g => h ((startsWith_iff _ _).2 g)
        refine ⟨(ih entries hn).1, fun l hl => ⟨((ih entries hn).2 l hl).1, fun x => ?_⟩⟩
        rw [((ih entries hn).2 l hl).2]
        simp only [List.mem_cons, Option.some.injEq]
        constructor
        · rintro (h | h)
          · exact .inl h
          · exact .inr ⟨.inr h.1, h.2⟩
        · rintro (h | ⟨rfl | h, h3⟩)
          · exact .inl h
          · exact absurd h3 h'
          · exact .inr ⟨h, h3⟩

theorem addDirs_spec (line : Str) (readDir : Str → Option (List (Option Str))) (ds entries : List Str)
    (hn : entries.Nodup) :
    (addDirs line readDir entries ds = none ↔ ∃ d ∈ ds, ∃ names, readDir d = some names ∧ none ∈ names) ∧
    ∀ l, addDirs line readDir entries ds = some l → l.Nodup ∧
      ∀ x, x ∈ l ↔ x ∈ entries ∨ (∃ d ∈ ds, ∃ names, readDir d = some names ∧ some x ∈ names) ∧ line <+: x := by
  induction ds generalizing entries with
  | nil =>
    refine ⟨by simp [addDirs], fun l h => ?_⟩
    cases h
    exact ⟨hn, by simp⟩
  | cons d ds ih =>
    rw [addDirs]
    cases hd : readDir d with
    | none =>
      refine ⟨?_, fun l hl => ⟨((ih entries hn).2 l hl).1, fun x => ?_⟩⟩
      · simp only
        rw [(ih entries hn).1]
        simp [hd]
      · rw [((ih entries hn).2 l hl).2]
        simp [hd]
    | some names =>
      simp only
      obtain ⟨g0, g⟩ := addNames_spec line names entries hn
      cases hnames : addNames line entries names with
      | none =>
        have := g0.1 hnames
        refine ⟨?_, fun l hl => (nomatch hl)⟩
        simp only [Option.bind_none, true_iff]
        exact ⟨d, List.mem_cons_self, names, hd, this⟩
      | some es =>
        obtain ⟨g1, g2⟩ := g es hnames
        have hno : none ∉ names := fun h => by rw [g0.2 h] at hnames; cases hnames
        refine ⟨?_, fun l hl => ⟨((ih es g1).2 l hl).1, fun x => ?_⟩⟩
        · rw [Option.bind_some, (ih es g1).1]
          constructor
          · rintro ⟨d', h1, h2⟩
            exact ⟨d', List.mem_cons_of_mem _ h1, h2⟩
          · rintro ⟨d', h1, ns, h2, h3⟩
            rcases List.mem_cons.1 h1 with rfl | h1
            · rw [hd] at h2; cases h2; exact absurd h3 hno
            · exact ⟨d', h1, ns, h2, h3⟩
        · rw [((ih es g1).2 l hl).2, g2]
          constructor
          · rintro ((h | h) | ⟨⟨d', h1, h2⟩, h3⟩)
            · exact .inl h
            · exact .inr ⟨⟨d, List.mem_cons_self, names, hd, h.1⟩, h.2⟩
            · exact .inr ⟨⟨d', List.mem_cons_of_mem _ h1, h2⟩, h3⟩
          · rintro (h | ⟨⟨d', h1, ns, h2, h4⟩, h3⟩)
            · exact .inl (.inl h)
            · rcases List.mem_cons.1 h1 with rfl | h1
              · rw [hd] at h2; cases h2; exact .inl (.inr ⟨h4, h3⟩)
              · exact .inr ⟨⟨d', h1, ns, h2, h4⟩, h3⟩

/-- C84, the part that holds: if the shell's environment has `PATH`, and all entries of its directories have names that are
texts, completion of a line replaces it from its beginning by one of a strictly increasing list of names, which are exactly
the names beginning with the line in the readable directories of that `PATH`.  Missing: that this is the shell variable
`PATH`, an environment without it, and entries of other names (see the counterexample and `C84_crash`). -/
theorem C84_complete_partial (env : AMap Str) (readDir : Str → Option (List (Option Str))) (line path : Str)
    (hp : env.get (cs!"PATH") = some path)
    (ht : ∀ ds, Lists path ds → ∀ d ∈ ds, ∀ names, readDir d = some names → none ∉ names) :
    ∃ matches_, complete env readDir line = some (0, matches_) ∧ matches_.Pairwise (· < ·) ∧
      ∀ x, x ∈ matches_ ↔ line <+: x ∧ ∃ ds, Lists path ds ∧ ∃ d ∈ ds, ∃ names, readDir d = some names ∧ some x ∈ names := by
  obtain ⟨h0, h⟩ := addDirs_spec line readDir (splitOn ':' path) [] List.nodup_nil
  cases hl : addDirs line readDir [] (splitOn ':' path) with
  | none =>
    obtain ⟨d, h1, ns, h2, h3⟩ := h0.1 hl
    exact absurd h3 (ht _ (lists_iff.2 rfl) d h1 ns h2)
  | some l =>
    obtain ⟨h1, h2⟩ := h l hl
    refine ⟨l.mergeSort strLe, ?_, ?_, fun x => ?_⟩
    · simp [complete, commandComplete, hp, hl]
    · have hs : (l.mergeSort strLe).Pairwise (fun a b => strLe a b = true) := by
        apply List.pairwise_mergeSort
        · intro a b c hab hbc
          rw [strLe_iff] at *
          exact List.le_trans hab hbc
        · intro a b
          rcases List.le_total a b with h | h
          · simp [(strLe_iff a b).2 h]
          · simp [(strLe_iff b a).2 h]
      have hn : (l.mergeSort strLe).Nodup := (List.mergeSort_perm _ _).nodup_iff.2 h1
      refine (hs.and hn).imp fun {a b} h => ?_
      have hle := (strLe_iff a b).1 h.1
      exact Std.lt_of_le_of_ne hle h.2
    · rw [List.mem_mergeSort, h2]
      simp only [List.not_mem_nil, false_or, lists_iff, exists_eq_left']
      exact ⟨fun h => ⟨h.2, h.1⟩, fun h => ⟨h.2, h.1⟩⟩

/-- C84, exactly when it fails with a crash: the environment has no `PATH`, or a readable directory of it has an entry whose
name is no text, whatever has been typed. -/
theorem C84_crash (env : AMap Str) (readDir : Str → Option (List (Option Str))) (line : Str) :
    complete env readDir line = none ↔ ∀ path, env.get (cs!"PATH") = some path →
      ∃ ds, Lists path ds ∧ ∃ d ∈ ds, ∃ names, readDir d = some names ∧ none ∈ names := by
  unfold complete commandComplete
  rw [Option.map_eq_none_iff]
  cases env.get (cs!"PATH") with
  | none => simp
  | some path =>
    rw [Option.bind_some, (addDirs_spec line readDir (splitOn ':' path) [] List.nodup_nil).1]
    simp [lists_iff]

/-- C84 fails: completion asks the environment of the shell, not the variable `PATH`; it crashes if the
environment does not have it, and if a directory has an entry whose name is no text. -/
theorem C84_counterexample :
    (let s := demo [cs!"PATH=/x"]
     valueOf s (cs!"PATH") = some (cs!"/x") ∧
     complete s.env (fun d => if d = cs!"/bin" then some [some (cs!"ls")] else if d = cs!"/x" then some [some (cs!"lx")] else none)
       (cs!"l") = some (0, [cs!"ls"])) ∧
    (∀ readDir line, complete [] readDir line = none) ∧
    complete [(cs!"PATH", cs!"/bin")] (fun _ => some [some (cs!"ls"), none]) (cs!"l") = none :=
  ⟨by decide +kernel, fun _ _ => rfl, by decide +kernel⟩

example : ∃ m, complete [(cs!"PATH", cs!"/a:/b:/none")] (fun d => if d = cs!"/a" then some [some (cs!"lz"), some (cs!"ls"), some (cs!"cat")]
      else if d = cs!"/b" then some [some (cs!"ls"), some (cs!"la")] else none) (cs!"l") = some (0, m) ∧
    m.Pairwise (· < ·) ∧ cs!"la" ∈ m ∧ cs!"ls" ∈ m ∧ cs!"cat" ∉ m := by
  have hl : Lists (cs!"/a:/b:/none") [cs!"/a", cs!"/b", cs!"/none"] := by simp [Lists, List.intercalate]
  obtain ⟨m, h1, h2, h3⟩ := C84_complete_partial [(cs!"PATH", cs!"/a:/b:/none")]
    (fun d => if d = cs!"/a" then some [some (cs!"lz"), some (cs!"ls"), some (cs!"cat")]
      else if d = cs!"/b" then some [some (cs!"ls"), some (cs!"la")] else none) (cs!"l") (cs!"/a:/b:/none") rfl
    (fun ds _ d _ names hd => by
      split at hd
      · cases hd; simp
      · split at hd
        · cases hd; simp
        · cases hd)
  exact ⟨m, h1, h2, (h3 _).2 ⟨by decide, _, hl, cs!"/b", by decide, _, rfl, by decide⟩,
    (h3 _).2 ⟨by decide, _, hl, cs!"/a", by decide, _, rfl, by decide⟩, fun h => absurd ((h3 _).1 h).1 (by decide)⟩

end Rsh
