import Verif.Spec.Listings
import Verif.Props.Builtins
import Verif.Proofs.Call
import Verif.Props.Namespaces

/-!
# Listings, and files as namespaces once more
-/

namespace Rsh

open Spec

theorem printlnM_wrote (t : Str) (s : Sh) : printlnM t s = (.ok (), wrote s [t]) := rfl

theorem displayAliases_run (al : AMap Str) (s : Sh) : displayAliases al s = (.ok (), wrote s (al.map aliasLine)) := by
  induction al generalizing s with
  | nil => rfl
  | cons p al ih =>
    obtain ⟨k, v⟩ := p
    unfold displayAliases
    rw [run_bind_ok (printlnM_wrote _ s), ih]
    rfl

theorem printEnv_run (al : AMap Str) (s : Sh) : printEnv al s = (.ok (), wrote s (al.map envLine)) := by
  induction al generalizing s with
  | nil => rfl
  | cons p al ih =>
    obtain ⟨k, v⟩ := p
    unfold printEnv
    rw [run_bind_ok (printlnM_wrote _ s), ih]
    rfl

theorem parse_space (t : Str) : parse (' ' :: t) = parse t := by
  unfold parse
  rw [lex_toks, lex_toks, toks_blank ' ' t (by decide) (by decide)]

/-- A space before a line makes no difference. -/
theorem interactiveLine_space (w : World) (n : Nat) {t : Str} (h : t ≠ []) (hp : parse t ≠ none) :
    interactiveLine w n (' ' :: t) = interactiveLine w n t := by
  unfold interactiveLine
  rw [if_neg (by simp), if_neg h, parse_space]
  cases e : parse t with
  | none => exact absurd e hp
  | some cc => rfl

/-- C131, as far as it holds: `alias -p` writes one line for each alias, and changes nothing.  Missing: `alias` alone,
see below. -/
theorem C131_aliases_partial (w : World) (n : Nat) (s : Sh) (h : s.aliases.get (cs!"alias") = none) :
    interactiveLine w (n + 1) (Call.text ⟨cs!"alias", [word (cs!"-p")]⟩) s =
      (.ok (), wrote { s with masked := true } (s.aliases.map aliasLine)) := by
  rw [Call.line w n ⟨by decide, by decide, h, by simp [word, Typed.Ok]; decide,
    by
      intro a ha
      simp only [List.mem_singleton] at ha
      subst ha
      exact means_word (by decide)⟩]
  apply reportM_ok
  rw [callBuiltin_alias _ _ rfl]
  exact displayAliases_run _ _

/-- C131: `export` writes one line for each variable of the environment, and changes nothing. -/
theorem C131_environment (w : World) (n : Nat) (s : Sh) (h : s.aliases.get (cs!"export") = none) :
    interactiveLine w (n + 1) (Call.text ⟨cs!"export", []⟩) s =
      (.ok (), wrote { s with masked := true } (s.env.map envLine)) := by
  rw [Call.line w n ⟨by decide, by decide, h, by simp, by simp⟩]
  apply reportM_ok
  rw [callBuiltin_export _ _ rfl]
  exact printEnv_run _ _

/-- C131 fails: `alias` without arguments crashes the shell instead of listing the aliases. -/
theorem C131_counterexample (w : World) (n : Nat) (s : Sh) (h : s.aliases.get (cs!"alias") = none) :
    interactiveLine w (n + 1) (Call.text ⟨cs!"alias", []⟩) s = (.panic .index, { s with masked := true }) := by
  rw [Call.line w n ⟨by decide, by decide, h, by simp, by simp⟩]
  unfold reportM
  rw [run_bind, run_tryE, callBuiltin_alias _ _ rfl]
  rfl

/-- The lines of a listing. -/
example : aliasLine (cs!"l", cs!"ls -l") = cs!"alias l='ls -l'" ∧ envLine (cs!"HOME", cs!"/") = cs!"HOME=/" := by decide

/-- What is printed when two aliases are listed. -/
example : ((demo [cs!"alias l='ls -l'", cs!"alias m=more", cs!"alias -p"]).trace.filterMap fun
    | .print _ t => some t
    | _ => none) = [cs!"alias l='ls -l'\n", cs!"alias m='more'\n"] := by decide +kernel

/-! ## A listing can be typed again -/

theorem aliasAfter_sets (old : Str → Option Str) (x : Str) (al : AMap Str) :
    aliasAfter old x (al.map fun p => .set p.1 (.single p.2)) = (al.get x).or (old x) := by
  induction al with
  | nil => rfl
  | cons p al ih =>
    obtain ⟨k, v⟩ := p
    show (if k = x then some v else aliasAfter old x (al.map _)) = _
    rw [ih]
    unfold AMap.get
    rw [List.lookup_cons]
    by_cases h : k = x
    · subst h; simp
    · rw [if_neg h, beq_false_of_ne (fun e => h e.symm)]

theorem AMap.get_reverse {α : Type} (al : AMap α) (h : (al.map Prod.fst).Nodup) (x : Str) :
    AMap.get al.reverse x = al.get x := by
  induction al with
  | nil => rfl
  | cons p al ih =>
    obtain ⟨k, v⟩ := p
    rw [List.map_cons, List.nodup_cons] at h
    unfold AMap.get at *
    rw [List.reverse_cons, List.lookup_append, ih h.2, List.lookup_cons]
    by_cases e : x = k
    · subst e
      have : List.lookup x al = none := by
        rw [List.lookup_eq_none_iff]
        intro p hp
        rw [bne_iff_ne]
        intro e
        exact h.1 (List.mem_map.2 ⟨p, hp, e.symm⟩)
      simp [this]
    · rw [beq_false_of_ne e]
      cases hl : List.lookup x al <;> simp [List.lookup_cons, beq_false_of_ne e, hl]

theorem aliasLine_run (w : World) (n : Nat) {p : Str × Str} (h : Listable p) :
    interactiveLine w n (AliasOp.cmd (.set p.1 (.single p.2))).line.text = interactiveLine w n (aliasLine p) := by
  have e : (AliasOp.cmd (.set p.1 (.single p.2))).line.text = ' ' :: aliasLine p := by
    simp [AliasOp.cmd, TCmd.line, TLine.text, TLine.lexemes, TChain.lexemes, TPipe.lexemes, TCmd.lexemes, Part.text, line,
      aliasLine, Typed.text]
  rw [e]
  refine interactiveLine_space w n (by simp [aliasLine]) ?_
  rw [← parse_space, ← e, TCmd.parse ⟨by simp [AliasOp.cmd], by simp [AliasOp.cmd],
    by simp [AliasOp.cmd, Typed.Ok]; decide, by simpa [AliasOp.cmd, Part.Ok, Typed.Ok] using ⟨h.name, h.noQuote⟩,
    by simp [AliasOp.cmd]⟩]
  simp

theorem typeAll_congr {α : Type} {w : World} {n : Nat} {f g : α → Str} (l : List α)
    (h : ∀ a ∈ l, interactiveLine w n (f a) = interactiveLine w n (g a)) :
    typeAll w n (l.map f) = typeAll w n (l.map g) := by
  induction l with
  | nil => rfl
  | cons a l ih =>
    rw [List.map_cons, List.map_cons]
    unfold typeAll
    rw [h a List.mem_cons_self, ih fun b hb => h b (List.mem_cons_of_mem _ hb)]

/-- C131, the listing can be typed again: in any other session it gives every alias its value, if there is no single quote,
`=` or `-p` in any of them, and leaves the other aliases alone. -/
theorem C131_again_partial (w : World) (n : Nat) (al : AMap Str) (hal : ∀ p ∈ al, Listable p) (hnd : (al.map Prod.fst).Nodup)
    (s : Sh) (h1 : s.aliases.get (cs!"alias") = none) (h2 : s.aliases.get (cs!"unalias") = none) :
    ∃ s', typeAll w (n + 1) (al.map aliasLine) s = (.ok (), s') ∧
      ∀ x, s'.aliases.get x = (al.get x).or (s.aliases.get x) := by
  have hok : ∀ o ∈ al.map fun p => AliasOp.set p.1 (.single p.2), o.Ok := by
    intro o ho
    obtain ⟨p, hp, rfl⟩ := List.mem_map.1 ho
    have h := hal p hp
    refine ⟨h.name, h.noQuote, ?_, ?_, h.noAlias⟩
    · simpa [Typed.text] using h.noEq
    · rintro ⟨a, b, e⟩
      refine h.noDash ⟨cs!"alias " ++ a, b, ?_⟩
      have : aliasLine p = cs!"alias " ++ (p.1 ++ '=' :: (Typed.single p.2).text) := by simp [aliasLine, Typed.text]
      rw [this, e]
      simp
  obtain ⟨s', e1, e2⟩ := C24_aliases_partial w n _ hok s h1 h2
  refine ⟨s', ?_, fun x => ?_⟩
  · rw [← e1, List.map_map, typeAll_congr al fun p hp => (aliasLine_run w (n + 1) (hal p hp)).symm]
    rfl
  · rw [e2, ← List.map_reverse, aliasAfter_sets, AMap.get_reverse _ hnd]

/-- Such aliases. -/
example : ∀ p ∈ [(cs!"l", cs!"ls -l"), (cs!"m", cs!"more"), (cs!"e", cs!"echo \"$HOME\"")], Listable p := by
  intro p hp
  have h : ∀ p ∈ [(cs!"l", cs!"ls -l"), (cs!"m", cs!"more"), (cs!"e", cs!"echo \"$HOME\"")],
      PlainWord p.1 ∧ (p.1 ≠ cs!"alias" ∧ p.1 ≠ cs!"unalias") ∧ '\'' ∉ p.2 ∧ '=' ∉ p.2 ∧ hasSub (cs!"-p") (aliasLine p) = false := by
    decide
  obtain ⟨h1, h2, h3, h4, h5⟩ := h p hp
  exact ⟨h1, h2, h3, h4, fun ⟨a, b, e⟩ => (hasSub_false _ _).1 h5 a b e⟩

/-- C131 fails: an alias whose value has a single quote is listed as a line that does not define it. -/
theorem C131_quote :
    (demo [cs!"alias i=\"it's\""]).aliases.map aliasLine = [cs!"alias i='it's'"] ∧
    (demo [cs!"alias i='it's'"]).aliases.get (cs!"i") ≠ some (cs!"it's") := by decide +kernel

/-! ## White space -/

/-- C99: white space is that of Unicode, 25 characters. -/
theorem C99_white (c : Char) : isWs c = true ↔ c ∈ whiteSpace := by
  have h : ∀ d : Char, (c = d) ↔ c.toNat = d.toNat := fun d => ⟨fun e => by rw [e], fun e => Char.toNat_inj.1 e⟩
  simp only [isWs, Bool.or_eq_true, Bool.and_eq_true, decide_eq_true_eq, beq_iff_eq, whiteSpace, List.mem_cons, List.not_mem_nil,
    or_false, h]
  simp only [Char.reduceToNat]
  omega

/-! ## Any file as a namespace -/

/-- C120, for every file: `export context ns=file` reads the file; if that fails or it does not parse, a message is all;
otherwise it is evaluated in a new context. -/
theorem C120_any (w : World) (n : Nat) (s : Sh) (ns file : Str) (hns : PlainWord ns) (hfile : PlainWord file)
    (hself : file ≠ cs!"self") (cur : Nat) (hcur : s.ctx.current = some cur) (halias : s.aliases.get (cs!"export") = none) :
    let s1 := did { s with masked := true } (.readFile file)
    let r := interactiveLine w (n + 1) (exportContextLine ns file).line.text s
    match w.readFile s.trace file with
    | .text t => (parse t = none → r = (.ok (), wrote s1 [cs!"Error parsing file: " ++ w.parseMsg t])) ∧
        (parse t ≠ none → Imported w n ns t s1 r)
    | _ => r = (.ok (), wrote s1 [w.osMsg]) := by
  intro s1 r
  have hr : r = reportM (do
      let id ← createContextFromFile w (evalFuel w n) file
      addContextM ns id) { s with masked := true } := by
    show interactiveLine w (n + 1) (exportContextLine ns file).line.text s = _
    rw [exportContextLine_run w n hns hfile halias, exportContext_split hns hfile hself]
    unfold reportM
    rw [run_bind, run_bind, run_tryE, run_tryE, run_getS_bind, hcur, unwrapM_some, run_pure_bind]
  have e : readFileM w file { s with masked := true } = (.ok (w.readFile s.trace file), s1) := rfl
  rw [hr]
  unfold reportM createContextFromFile
  rw [run_bind, run_tryE, bind_assoc, run_bind_ok e]
  cases hf : w.readFile s.trace file with
  | missing => rfl
  | notUtf8 => rfl
  | text t =>
    dsimp only
    cases hp : parse t with
    | none => exact ⟨fun _ => by rfl, fun h => absurd rfl h⟩
    | some cc =>
      refine ⟨fun h => (nomatch h), fun _ => ?_⟩
      unfold Imported evalText
      simp only [hp]
      rcases he : evalTop w n cc { s1 with ctx := s1.ctx.pushNew } with ⟨o, s2⟩
      have h : evalCC (evalFuel w n) cc { s1 with ctx := s1.ctx.pushNew } = (o, s2) := he
      unfold pushContextNew
      simp only [bind_assoc, run_modS_bind]
      rw [run_bind, run_tryE, h]
      cases o with
      | ok a =>
        intro i j rest hst
        dsimp only
        unfold popContext CtxMgr.pop
        rw [bind_assoc, run_getS_bind]
        simp only [hst, unwrapM_some]
        rfl
      | _ => rfl

/-- Such a call. -/
example : PlainWord (cs!"ns") ∧ PlainWord (cs!"lib") ∧ (demoShell []).ctx.current = some 1 ∧
    (demoShell []).aliases.get (cs!"export") = none := by decide +kernel

/-- C120 fails: after an error in the file its context is not dropped; the variables of the file stay with the shell. -/
theorem C120_error :
    let s := demo [cs!"export context ns=lib"] [] [(cs!"lib", cs!"Y=new; { ls; }")]
    valueOf s (cs!"Y") = some (cs!"new") ∧ valueOf s (cs!"ns::Y") = none ∧ s.ctx.stack.length = (demoShell []).ctx.stack.length + 1 := by
  decide +kernel

end Rsh
