import Verif.Proofs.Frame
import Verif.Model.Main

/-!
# The depth of nested evaluation

`Le m m'`: wherever `m` does not run out of nesting depth, `m'` does exactly what `m` does.  Every part
of the evaluator is monotone for this order, so a larger depth changes nothing but the runs that were
cut short.
-/

namespace Rsh

/-- See above. -/
def Le (m m' : M α) : Prop := ∀ s, (m s).1 = .deep ∨ m' s = m s

namespace Le

theorem rfl {m : M α} : Le m m := fun _ => .inr (Eq.refl _)

theorem bind {m m' : M α} {f f' : α → M β} (h : Le m m') (hf : ∀ a, Le (f a) (f' a)) :
    Le (m >>= f) (m' >>= f') := by
  intro s
  rw [run_bind, run_bind]
  rcases h s with h | h
  · rcases hm : m s with ⟨o, s1⟩
    rw [hm] at h
    cases h
    exact .inl (Eq.refl _)
  · rw [h]
    rcases m s with ⟨o, s1⟩
    cases o with
    | ok a => exact hf a s1
    | _ => exact .inr (Eq.refl _)

theorem tryE {m m' : M α} (h : Le m m') : Le (Rsh.tryE m) (Rsh.tryE m') := by
  intro s
  rw [run_tryE, run_tryE]
  rcases h s with h | h
  · rcases hm : m s with ⟨o, s1⟩
    rw [hm] at h
    cases h
    exact .inl (Eq.refl _)
  · rw [h]
    exact .inr (Eq.refl _)

theorem ite {c : Prop} [Decidable c] {a a' b b' : M α} (ha : Le a a') (hb : Le b b') :
    Le (if c then a else b) (if c then a' else b') := by split <;> assumption

theorem runChild {w : World} {m m' : M α} (h : Le m m') : Le (Rsh.runChild w m) (Rsh.runChild w m') := by
  intro s
  unfold Rsh.runChild
  rcases h (childStart w s) with h | h
  · rcases hm : m (childStart w s) with ⟨o, s1⟩
    rw [hm] at h
    cases h
    exact .inl (Eq.refl _)
  · rw [h]
    exact .inr (Eq.refl _)

/-- Close a goal `Le m m'` by the structure of `m` and `m'`. -/
macro "mono" : tactic => `(tactic| repeat' first
  | assumption
  | with_reducible exact Le.rfl
  | with_reducible refine Le.bind ?_ fun _ => ?_
  | with_reducible refine Le.tryE ?_
  | with_reducible refine Le.runChild ?_
  | with_reducible refine Le.ite ?_ ?_
  | with_reducible apply_assumption
  | dsimp only
  | split)

variable {w : World} {rec rec' : List AndOr → M Int}

theorem evalCC (h : ∀ l, Le (rec l) (rec' l)) (cc : CompleteCommand) :
    Le (Rsh.evalCC rec cc) (Rsh.evalCC rec' cc) := by
  unfold Rsh.evalCC
  mono

theorem evalSubshell (h : ∀ l, Le (rec l) (rec' l)) (x : Str) :
    Le (Rsh.evalSubshell w rec x) (Rsh.evalSubshell w rec' x) := by
  unfold Rsh.evalSubshell
  have h1 : ∀ cc r wr, Le (substChild rec cc r wr) (substChild rec' cc r wr) := by
    intro cc r wr
    unfold substChild
    have := Le.evalCC h
    mono
  mono

theorem cutLoop (h : ∀ l, Le (rec l) (rec' l)) (n : Nat) (x : Str) :
    Le (Rsh.cutLoop w rec n x) (Rsh.cutLoop w rec' n x) := by
  have hs := Le.evalSubshell (w := w) h
  induction n generalizing x with
  | zero => exact .rfl
  | succ n ih =>
    cases x with
    | nil => exact .rfl
    | cons c x =>
      unfold Rsh.cutLoop
      mono

theorem cutQuotes (h : ∀ l, Le (rec l) (rec' l)) (x : Str) :
    Le (Rsh.cutQuotes w rec x) (Rsh.cutQuotes w rec' x) := by
  unfold Rsh.cutQuotes
  have := Le.cutLoop (w := w) h
  mono

theorem evalDoubleQuotes (h : ∀ l, Le (rec l) (rec' l)) (x : Str) :
    Le (Rsh.evalDoubleQuotes w rec x) (Rsh.evalDoubleQuotes w rec' x) := by
  unfold Rsh.evalDoubleQuotes
  have := Le.cutQuotes (w := w) h
  have := Le.evalSubshell (w := w) h
  mono

theorem evalNameWords (h : ∀ l, Le (rec l) (rec' l)) (ps : List Str) :
    Le (Rsh.evalNameWords w rec ps) (Rsh.evalNameWords w rec' ps) := by
  have := Le.evalDoubleQuotes (w := w) h
  induction ps with
  | nil => exact .rfl
  | cons p ps ih =>
    unfold Rsh.evalNameWords
    mono

theorem evalSuffixWords (h : ∀ l, Le (rec l) (rec' l)) (ps : List Str) :
    Le (Rsh.evalSuffixWords w rec ps) (Rsh.evalSuffixWords w rec' ps) := by
  have := Le.evalDoubleQuotes (w := w) h
  have := Le.cutQuotes (w := w) h
  induction ps with
  | nil => exact .rfl
  | cons p ps ih =>
    unfold Rsh.evalSuffixWords
    mono

theorem evalWords (h : ∀ l, Le (rec l) (rec' l)) (c : SimpleCommand) :
    Le (Rsh.evalWords w rec c) (Rsh.evalWords w rec' c) := by
  have := Le.evalNameWords (w := w) h
  have := Le.evalSuffixWords (w := w) h
  have := Le.cutQuotes (w := w) h
  unfold Rsh.evalWords
  mono

theorem expandCommand (h : ∀ l, Le (rec l) (rec' l)) (c : SimpleCommand) :
    Le (Rsh.expandCommand w rec c) (Rsh.expandCommand w rec' c) := by
  have := Le.evalWords (w := w) h
  unfold Rsh.expandCommand
  mono

theorem createContextFromFile (h : ∀ l, Le (rec l) (rec' l)) (f : Str) :
    Le (Rsh.createContextFromFile w rec f) (Rsh.createContextFromFile w rec' f) := by
  have := Le.evalCC h
  unfold Rsh.createContextFromFile
  mono

theorem bExport (h : ∀ l, Le (rec l) (rec' l)) (c : SimpleCommand) :
    Le (Rsh.bExport w rec c) (Rsh.bExport w rec' c) := by
  have := Le.createContextFromFile (w := w) h
  unfold Rsh.bExport Rsh.exportContext
  mono

theorem bEval (h : ∀ l, Le (rec l) (rec' l)) (c : SimpleCommand) :
    Le (Rsh.bEval w rec c) (Rsh.bEval w rec' c) := by
  have := Le.evalCC h
  unfold Rsh.bEval
  mono

theorem bSource (h : ∀ l, Le (rec l) (rec' l)) (c : SimpleCommand) :
    Le (Rsh.bSource w rec c) (Rsh.bSource w rec' c) := by
  have := Le.evalCC h
  unfold Rsh.bSource
  mono

theorem callBuiltin (h : ∀ l, Le (rec l) (rec' l)) (c : SimpleCommand) :
    Le (Rsh.callBuiltin w rec c) (Rsh.callBuiltin w rec' c) := by
  have := Le.bExport (w := w) h
  have := Le.bEval (w := w) h
  have := Le.bSource (w := w) h
  unfold Rsh.callBuiltin
  mono

theorem evalFunction (h : ∀ l, Le (rec l) (rec' l)) (c : SimpleCommand) :
    Le (Rsh.evalFunction rec c) (Rsh.evalFunction rec' c) := by
  have : ∀ cc, Le (evalCompound rec cc) (evalCompound rec' cc) := by
    intro cc
    unfold evalCompound
    mono
  unfold Rsh.evalFunction
  mono

theorem callFunction (h : ∀ l, Le (rec l) (rec' l)) (c : SimpleCommand) :
    Le (Rsh.callFunction rec c) (Rsh.callFunction rec' c) := by
  have := Le.evalFunction h
  unfold Rsh.callFunction
  mono

theorem evalCommand (h : ∀ l, Le (rec l) (rec' l)) (c : Command) :
    Le (Rsh.evalCommand w rec c) (Rsh.evalCommand w rec' c) := by
  have := Le.expandCommand (w := w) h
  have := Le.callBuiltin (w := w) h
  unfold Rsh.evalCommand Rsh.evalSimple Rsh.evalBuiltin
  mono

theorem evalCommands (h : ∀ l, Le (rec l) (rec' l)) (cs : List Command) :
    Le (Rsh.evalCommands w rec cs) (Rsh.evalCommands w rec' cs) := by
  have := Le.evalCommand (w := w) h
  induction cs with
  | nil => exact .rfl
  | cons c cs ih =>
    unfold Rsh.evalCommands
    mono

theorem runFunctions (h : ∀ l, Le (rec l) (rec' l)) (ps : List (Process × SimpleCommand)) :
    Le (Rsh.runFunctions rec ps) (Rsh.runFunctions rec' ps) := by
  have := Le.callFunction h
  induction ps with
  | nil => exact .rfl
  | cons p ps ih =>
    unfold Rsh.runFunctions
    mono

theorem pipelineChild (h : ∀ l, Le (rec l) (rec' l)) (b : Bool) (id : Nat) (pip : Int × Int) (prev : Int)
    (p : Process) (c : SimpleCommand) :
    Le (Rsh.pipelineChild w rec b id pip prev p c) (Rsh.pipelineChild w rec' b id pip prev p c) := by
  have := Le.callFunction h
  unfold Rsh.pipelineChild
  mono

theorem forkLoop (h : ∀ l, Le (rec l) (rec' l)) (b : Bool) (id total : Nat)
    (ps : List (Process × SimpleCommand)) (count : Nat) (pip : Int × Int) (prev : Int) :
    Le (Rsh.forkLoop w rec b id total ps count pip prev) (Rsh.forkLoop w rec' b id total ps count pip prev) := by
  have := Le.pipelineChild (w := w) h
  induction ps generalizing count pip prev with
  | nil => exact .rfl
  | cons p ps ih =>
    unfold Rsh.forkLoop
    mono

theorem evalPipeline (h : ∀ l, Le (rec l) (rec' l)) (p : Pipeline) :
    Le (Rsh.evalPipeline w rec p) (Rsh.evalPipeline w rec' p) := by
  have := Le.evalCommands (w := w) h
  have := Le.runFunctions h
  have := Le.forkLoop (w := w) h
  unfold Rsh.evalPipeline
  mono

theorem evalAndOr (h : ∀ l, Le (rec l) (rec' l)) (a : AndOr) :
    Le (Rsh.evalAndOr w rec a) (Rsh.evalAndOr w rec' a) := by
  have := Le.evalPipeline (w := w) h
  fun_induction Rsh.evalAndOr w rec a with
  | case1 c p => unfold Rsh.evalAndOr; mono
  | case2 l c p ih => unfold Rsh.evalAndOr; mono

theorem evalListFrom (h : ∀ l, Le (rec l) (rec' l)) (st : Int) (l : List AndOr) :
    Le (Rsh.evalListFrom w rec st l) (Rsh.evalListFrom w rec' st l) := by
  have := Le.evalAndOr (w := w) h
  induction l generalizing st with
  | nil => exact .rfl
  | cons a l ih =>
    unfold Rsh.evalListFrom
    mono

end Le

/-- One more level of nesting. -/
theorem evalFuel_succ (w : World) (n : Nat) (l : List AndOr) :
    Le (evalFuel w n l) (evalFuel w (n + 1) l) := by
  induction n generalizing l with
  | zero => exact fun s => .inl rfl
  | succ n ih => exact Le.evalListFrom ih (-1) l

/-- A larger depth changes nothing but the runs that were cut short. -/
theorem evalFuel_le {n m : Nat} (h : n ≤ m) (w : World) (l : List AndOr) :
    Le (evalFuel w n l) (evalFuel w m l) := by
  induction h with
  | refl => exact .rfl
  | step _ ih =>
    intro s
    rcases ih s with h1 | h1
    · exact .inl h1
    · rcases evalFuel_succ w _ l s with h2 | h2
      · exact .inl (by rw [← h1]; exact h2)
      · exact .inr (h2.trans h1)

namespace Le

variable {w : World} {n m : Nat}

theorem evalTop (h : n ≤ m) (cc : CompleteCommand) : Le (Rsh.evalTop w n cc) (Rsh.evalTop w m cc) :=
  evalCC (evalFuel_le h w) cc

theorem interactiveLine (h : n ≤ m) (x : Str) : Le (Rsh.interactiveLine w n x) (Rsh.interactiveLine w m x) := by
  have := Le.evalTop (w := w) h
  unfold Rsh.interactiveLine
  mono

theorem interactiveLoop (h : n ≤ m) (ins : List SessionIn) :
    Le (Rsh.interactiveLoop w n ins) (Rsh.interactiveLoop w m ins) := by
  have := Le.interactiveLine (w := w) h
  induction ins with
  | nil => exact .rfl
  | cons i ins ih =>
    cases i <;> unfold Rsh.interactiveLoop <;> mono

theorem scriptLine (h : n ≤ m) (x : Str) : Le (Rsh.scriptLine w n x) (Rsh.scriptLine w m x) := by
  have := Le.evalTop (w := w) h
  unfold Rsh.scriptLine
  mono

theorem scriptEof (h : n ≤ m) (k : Nat) : Le (Rsh.scriptEof w n k) (Rsh.scriptEof w m k) := by
  have := Le.scriptLine (w := w) h
  induction k with
  | zero => exact .rfl
  | succ k ih => unfold Rsh.scriptEof; mono

theorem scriptLines (h : n ≤ m) (k : Nat) (ls : List Str) :
    Le (Rsh.scriptLines w n k ls) (Rsh.scriptLines w m k ls) := by
  have := Le.scriptLine (w := w) h
  have := Le.scriptEof (w := w) h
  induction ls with
  | nil => unfold Rsh.scriptLines; mono
  | cons l ls ih => unfold Rsh.scriptLines; mono

theorem readStartup (h : n ≤ m) (path : Str) : Le (Rsh.readStartup w n path) (Rsh.readStartup w m path) := by
  have := Le.evalTop (w := w) h
  unfold Rsh.readStartup
  mono

theorem mainM (h : n ≤ m) (k : Nat) (args : List Str) (ins : List SessionIn) :
    Le (Rsh.mainM w n k args ins) (Rsh.mainM w m k args ins) := by
  have := Le.readStartup (w := w) h
  have := Le.interactiveLoop (w := w) h
  have := Le.scriptLines (w := w) h
  have := Le.evalTop (w := w) h
  unfold Rsh.mainM Rsh.readFromArgs Rsh.scriptLoop
  mono

end Le

end Rsh
