import Verif.Proofs.Layout
import Verif.Props.Startup

/-!
# Properties C99, C100: the layout of lines
-/

namespace Rsh

open Spec

/-! ## C99 -/

/-- C99: a line has the same effect with any blanks before its words and operators, or none where the two do
not fuse, and with any blanks, a comment and a newline at its end: from every state of the shell, at the
prompt, in a script, in a start-up file and in the text given with `-c`. -/
theorem C99_layout (w : World) (n : Nat) (t : TLine) (hok : t.Ok) (l : List (Str × Sym)) (h : Layout l)
    (hl : l.map Prod.snd = t.syms) (e : Str) (he : LineEnd e) :
    interactiveLine w n (laidOut l e) = interactiveLine w n t.text ∧
    scriptLine w n (laidOut l e) = scriptLine w n t.text ∧
    evalText w n (laidOut l e) = evalText w n t.text := by
  have hp := parse_laidOut hok h hl he
  have hs : parse t.text = some (some t.tree) := parse_tline hok
  refine ⟨?_, ?_, ?_⟩
  · unfold interactiveLine
    rw [if_neg (laidOut_ne hok h hl e), if_neg (TLine.text_ne hok), hp, hs]
  · unfold scriptLine
    rw [hp]
  · unfold evalText
    rw [hp, hs]

/-- `a ; b && c >f x` without the blanks that are not needed, and with a comment. -/
example (w : World) (n : Nat) :
    interactiveLine w n (cs!"a;b&&c>f x # …\n") = interactiveLine w n (cs!" a ; b && c >f x") := by
  have hb : ∀ c ∈ ([] : Str), Blank c := by simp
  have hw : ∀ x, PlainWord x → (TCmd.mk [] (some (.plain x)) []).Ok := fun x hx =>
    ⟨by simp, by simp, by rintro t ⟨⟩; exact hx, by simp, by simp⟩
  refine (C99_layout w n ⟨⟨{ first := { name := some (.plain (cs!"a")) } }, []⟩,
      [⟨{ first := { name := some (.plain (cs!"b")) } }, [(.and, { first :=
        { name := some (.plain (cs!"c")), after := [.redir none .output (.plain (cs!"f")), .arg (.plain (cs!"x"))] } })]⟩]⟩ ?_
    [([], .word (.plain (cs!"a"))), ([], .op .semi), ([], .word (.plain (cs!"b"))), ([], .op .and),
      ([], .word (.plain (cs!"c"))), ([], .op .great), ([], .word (.plain (cs!"f"))), ([' '], .word (.plain (cs!"x")))] ?_ rfl
    (cs!" # …\n") (.commentNewline (b := [' ']) (t := cs!" …") (by decide) (by decide) (by decide))).1
  · intro c hc
    simp only [TLine.cmds, TPipe.cmds, List.flatMap_cons, List.flatMap_nil, List.append_nil, List.cons_append, List.nil_append,
      List.mem_cons, List.not_mem_nil, or_false] at hc
    rcases hc with rfl | rfl | rfl
    · exact hw _ (by decide)
    · exact hw _ (by decide)
    · refine ⟨by simp, by simp, by rintro t ⟨⟩; show PlainWord _; decide, ?_, by simp⟩
      intro p hp
      simp only [List.mem_cons, List.not_mem_nil, or_false] at hp
      rcases hp with rfl | rfl <;> decide
  · refine .cons hb (show PlainWord _ by decide) (fun _ h => h) (.cons hb trivial (fun _ h => h)
      (.cons hb (show PlainWord _ by decide) (fun _ h => h) (.cons hb trivial (fun _ h => h)
      (.cons hb (show PlainWord _ by decide) (fun _ h => absurd (h 'c' (by decide)) (by decide)) (.cons hb trivial (fun _ h => h)
      (.cons hb (show PlainWord _ by decide) (by simp) (.one (by decide) (show PlainWord _ by decide))))))))

/-! ## C100 -/

/-- C100: a line of blanks and comments does nothing: from every state, in every place. -/
theorem C100_blank (w : World) (n : Nat) (e : Str) (he : LineEnd e) (s : Sh) :
    interactiveLine w n e s = (.ok (), s) ∧ scriptLine w n e s = (.ok (), s) ∧ evalText w n e s = (.ok 0, s) := by
  have hp := parse_blank he
  refine ⟨?_, ?_, ?_⟩
  · unfold interactiveLine
    rw [hp]
    split <;> rfl
  · unfold scriptLine
    rw [hp]
    rfl
  · unfold evalText
    rw [hp]
    rfl

/-- C100: so does a line that is all comment. -/
theorem C100_comment (w : World) (n : Nat) (t e : Str) (ht : '\n' ∉ t) (he : e = [] ∨ e = ['\n']) (s : Sh) :
    interactiveLine w n ('#' :: (t ++ e)) s = (.ok (), s) ∧ scriptLine w n ('#' :: (t ++ e)) s = (.ok (), s) ∧
    evalText w n ('#' :: (t ++ e)) s = (.ok 0, s) := by
  have hp : parse ('#' :: (t ++ e)) = some none := by
    unfold parse
    rw [lex_toks, toks_comment t e ht (by rcases he with rfl | rfl <;> simp)]
    rcases he with rfl | rfl <;> rfl
  refine ⟨?_, ?_, ?_⟩
  · unfold interactiveLine
    rw [hp, if_neg (by simp)]
    rfl
  · unfold scriptLine
    rw [hp]
    rfl
  · unfold evalText
    rw [hp]
    rfl

example : interactiveLine (demoWorld []) 20 (cs!"  # rm -r x\n") (demo []) = (.ok (), demo []) :=
  (C100_blank (demoWorld []) 20 _ (.commentNewline (b := [' ', ' ']) (t := cs!" rm -r x") (by decide) (by decide)
    (by decide)) _).1

end Rsh
