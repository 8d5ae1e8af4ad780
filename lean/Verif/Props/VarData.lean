import Verif.Spec.VarData
import Verif.Props.Crash

/-!
# Properties C110-C115: the variable store of src/var.rs
-/

namespace Rsh

open Spec

/-! ## Lemmas -/

theorem keyOf_iff {t n k : Str} : VarData.keyOf t n = some k ↔ Key t n k := by
  unfold VarData.keyOf
  cases t with
  | nil =>
    simp only [reduceCtorEq, false_iff]
    intro h
    cases h with
    | name h => cases h
    | number h => cases h
  | cons c t =>
    have hf : (c :: t).filter (fun c => decide (Digit c)) = (c :: t).filter isDigit10 := by
      apply List.filter_congr
      intro d _
      rw [Bool.eq_iff_iff, decide_eq_true_iff, isDigit_iff]
    by_cases hc : isDigit10 c = true
    · simp only [hc, if_true]
      have hd : Digits ((c :: t).filter isDigit10) := by
        refine ⟨by simp [hc], fun d hd => isDigit_iff.1 (List.mem_filter.1 hd).2⟩
      have key : ∀ m, parseUsize ((c :: t).filter isDigit10) = some m ↔
          m = decimal ((c :: t).filter isDigit10) ∧ decimal ((c :: t).filter isDigit10) < 18446744073709551616 := by
        intro m
        unfold parseUsize
        rw [parseUnsigned_iff]
        constructor
        · intro h
          generalize hx : (c :: t).filter isDigit10 = x at h hd
          cases h with
          | plain h1 h2 => exact ⟨rfl, by omega⟩
          | plus h1 h2 => exact absurd (digits_head hd '+' rfl) (by decide)
        · rintro ⟨rfl, h⟩
          exact .plain hd (by omega)
      rw [Option.map_eq_some_iff]
      constructor
      · rintro ⟨m, hm, rfl⟩
        obtain ⟨rfl, h⟩ := (key m).1 hm
        rw [← hf] at h ⊢
        exact .number rfl (isDigit_iff.1 hc) h
      · intro h
        cases h with
        | name h h2 => cases h; exact absurd (isDigit_iff.1 hc) h2
        | number h h2 h3 => exact ⟨_, (key _).2 ⟨rfl, by rw [← hf]; exact h3⟩, by rw [hf]⟩
    · simp only [hc, Bool.false_eq_true, if_false, Option.some.injEq]
      constructor
      · rintro rfl
        exact .name rfl (fun e => hc (isDigit_iff.2 e))
      · intro h
        cases h with
        | name => rfl
        | number h h2 => cases h; exact absurd (isDigit_iff.2 h2) hc

theorem stored_trim (v : Str) : Stored v (trimQuotes v) := by
  by_cases h : LoneQuote v
  · obtain ⟨q, hq, rfl⟩ := h
    refine .inl ⟨⟨q, hq, rfl⟩, ?_⟩
    simp only [quotes, List.mem_cons, List.not_mem_nil, or_false] at hq
    rcases hq with rfl | rfl <;> decide
  · obtain ⟨u, hu⟩ := unquoted_exists v
    rw [trimQuotes_unquoted hu h]
    exact .inr ⟨h, hu⟩

theorem stored_eq {v u : Str} (h : Stored v u) : u = trimQuotes v := by
  rcases h with ⟨⟨q, hq, rfl⟩, rfl⟩ | ⟨h1, h2⟩
  · simp only [quotes, List.mem_cons, List.not_mem_nil, or_false] at hq
    rcases hq with rfl | rfl <;> decide
  · exact (trimQuotes_unquoted h2 h1).symm

/-- The scopes a store stands for. -/
def VarData.scopes (d : VarData) : Scopes where
  globals k := (d.locals.get k).map NVar.value
  levels := d.stack.map fun m k => (m.get k).map NVar.value

theorem update_insert (m : AMap NVar) (k : Str) (v : NVar) :
    (fun x => ((m.insert k v).get x).map NVar.value) = update (fun x => (m.get x).map NVar.value) k v.value := by
  funext x
  unfold update
  rw [AMap.get_insert]
  split <;> simp_all

theorem insertAt_some {i : Nat} {k : Str} {v : NVar} {st st' : List (AMap NVar)}
    (h : VarData.insertAt i k v st = some st') :
    ∃ a m b, st = a ++ m :: b ∧ a.length = i ∧ st' = a ++ m.insert k v :: b := by
  unfold VarData.insertAt at h
  split at h
  · next hi =>
    cases h
    refine ⟨st.take i, st[i], st.drop (i + 1), ?_, ?_, ?_⟩
    · rw [← List.drop_eq_getElem_cons hi, List.take_append_drop]
    · rw [List.length_take]; omega
    · rw [List.modify_eq_take_cons_drop hi]
  · cases h

theorem insertAt_at (k : Str) (v : NVar) (a : List (AMap NVar)) (m : AMap NVar) (b : List (AMap NVar)) :
    VarData.insertAt a.length k v (a ++ m :: b) = some (a ++ m.insert k v :: b) := by
  unfold VarData.insertAt
  have hl : a.length < (a ++ m :: b).length := by simp
  rw [if_pos hl, List.modify_eq_take_cons_drop hl]
  simp

theorem addVar_put {d d' : VarData} (ht : d.table = []) {k : Str} {v : NVar} {pos : Int}
    (h : d.addVar k v pos = some d') : d'.table = [] ∧ Put k v.value pos d.scopes d'.scopes := by
  unfold VarData.addVar at h
  split at h
  · next hp =>
    cases h
    subst hp
    refine ⟨ht, ?_⟩
    have : ({ d with locals := d.locals.insert k v } : VarData).scopes =
        { d.scopes with globals := update d.scopes.globals k v.value } := by
      unfold VarData.scopes
      rw [← update_insert]
    rw [this]
    exact .global _
  · rw [if_neg (by rw [ht]; simp [AMap.get])] at h
    split at h
    · split at h
      · cases h
      · next h1 h2 h3 =>
        rw [Option.map_eq_some_iff] at h
        obtain ⟨st, hs, rfl⟩ := h
        obtain ⟨a, m, b, e1, e2, rfl⟩ := insertAt_some hs
        refine ⟨ht, ?_⟩
        have hpos : pos = ((a.map fun (m : AMap NVar) (k : Str) => (m.get k).map NVar.value).length : Nat) := by
          rw [List.length_map]; omega
        unfold VarData.scopes
        rw [e1]
        simp only [List.map_append, List.map_cons, update_insert]
        rw [hpos]
        exact .level _ _ _ _
    · next h1 h2 =>
      rw [Option.map_eq_some_iff] at h
      obtain ⟨st, hs, rfl⟩ := h
      obtain ⟨a, m, b, e1, e2, rfl⟩ := insertAt_some hs
      refine ⟨ht, ?_⟩
      have hlen : a.length < d.stack.length + 1 := by
        have := congrArg List.length e1
        simp [VarData.pushStack] at this
        omega
      have ha : a.length = d.stack.length := by omega
      have e1' : d.stack ++ [[]] = a ++ m :: b := e1
      obtain ⟨e3, e4⟩ := List.append_inj e1' ha.symm
      cases e4
      subst e3
      have hpos : pos = (d.scopes.levels.length : Nat) := by
        simp only [VarData.scopes, List.length_map]; omega
      rw [hpos]
      have : ({ d with stack := d.stack ++ [AMap.insert [] k v] } : VarData).scopes =
          ⟨d.scopes.globals, d.scopes.levels ++ [update (fun _ => none) k v.value]⟩ := by
        unfold VarData.scopes
        simp only [List.map_append, List.map_cons, List.map_nil, update_insert]
        rfl
      rw [this]
      exact .fresh _

theorem put_addVar {d : VarData} (ht : d.table = []) {k n u : Str} {pos : Int} {s' : Scopes}
    (h : Put k u pos d.scopes s') : ∃ d', d.addVar k ⟨n, u⟩ pos = some d' ∧ d'.scopes = s' := by
  generalize hs : d.scopes = s at h
  cases h with
  | global =>
    refine ⟨_, if_pos rfl, ?_⟩
    subst hs
    unfold VarData.scopes
    simp only [update_insert]
  | level g a b l =>
    have hl : d.stack.map (fun (m : AMap NVar) (k : Str) => (m.get k).map NVar.value) = a ++ l :: b := congrArg Scopes.levels hs
    obtain ⟨a', r, e1, rfl, e2⟩ := List.map_eq_append_iff.1 hl
    obtain ⟨m, b', rfl, rfl, rfl⟩ := List.map_eq_cons_iff.1 e2
    refine ⟨{ d with stack := a' ++ m.insert k ⟨n, u⟩ :: b' }, ?_, ?_⟩
    · unfold VarData.addVar
      rw [List.length_map, if_neg (by omega), ht, if_neg (by simp [AMap.get]), e1, if_pos (by simp; omega), if_neg (by omega),
        Int.toNat_natCast, insertAt_at]
      rfl
    · have hg : d.scopes.globals = g := congrArg Scopes.globals hs
      rw [← hg]
      unfold VarData.scopes
      simp only [List.map_append, List.map_cons, update_insert]
  | fresh =>
    subst hs
    refine ⟨{ d with stack := d.stack ++ [AMap.insert [] k ⟨n, u⟩] }, ?_, ?_⟩
    · unfold VarData.addVar
      simp only [VarData.scopes, List.length_map]
      rw [if_neg (by omega), ht, if_neg (by simp [AMap.get]), if_neg (by omega)]
      unfold VarData.pushStack
      rw [Int.toNat_natCast, insertAt_at]
      rfl
    · unfold VarData.scopes
      simp only [List.map_append, List.map_cons, List.map_nil, update_insert]
      rfl

theorem popStack_table {d : VarData} (ht : d.table = []) : d.popStack = { d with stack := d.stack.dropLast } := by
  unfold VarData.popStack
  split
  · next h =>
    rw [List.getLast?_eq_none_iff] at h
    cases d; simp_all
  · next m h =>
    have : ∀ (l : AMap NVar) (e : VarData), e.table = [] →
        l.foldl (fun d p => if d.checkLevels p.1 then { d with table := d.table.erase p.1 } else d) e = e := by
      intro l
      induction l with
      | nil => intros; rfl
      | cons p l ih =>
        intro e he
        rw [List.foldl_cons]
        split
        · rw [show ({ e with table := e.table.erase p.1 } : VarData) = e by rw [he]; cases e; simp_all [AMap.erase]]
          exact ih e he
        · exact ih e he
    exact this _ _ ht

theorem splitSet_cases (t : Str) :
    ('=' ∉ t ∧ splitSet t = (t, [])) ∨
    (∃ n v, '=' ∉ n ∧ '=' ∉ v ∧ t = n ++ '=' :: v ∧ splitSet t = (n, v)) ∨
    ∃ n v m, '=' ∉ n ∧ '=' ∉ v ∧ t = n ++ '=' :: v ++ '=' :: m ∧ splitSet t = (n, v) := by
  by_cases h : '=' ∈ t
  · refine .inr ?_
    obtain ⟨n, r, rfl, hn⟩ := List.eq_append_cons_of_mem h
    by_cases h2 : '=' ∈ r
    · obtain ⟨v, m, rfl, hv⟩ := List.eq_append_cons_of_mem h2
      refine .inr ⟨n, v, m, hn, hv, by simp, ?_⟩
      unfold splitSet
      rw [if_pos ((hasChar_iff ..).2 h), splitOn_append _ _ _ hn, splitOn_append _ _ _ hv]
    · refine .inl ⟨n, r, hn, h2, rfl, ?_⟩
      unfold splitSet
      rw [if_pos ((hasChar_iff ..).2 h), splitOn_append _ _ _ hn, splitOn_none _ _ h2]
  · refine .inl ⟨h, ?_⟩
    unfold splitSet
    rw [if_neg (by rw [hasChar_iff]; exact h)]

/-- The store does what the specification says, and crashes where it says nothing. -/
theorem step_iff {d : VarData} (ht : d.table = []) (o : VarOp) (s' : Scopes) :
    Step o d.scopes s' ↔ ∃ d', o.run d = some d' ∧ d'.table = [] ∧ d'.scopes = s' := by
  have add : ∀ {t n v k : Str} {pos : Int}, Key t n k → Put k (trimQuotes v) pos d.scopes s' →
      ∃ d', ((VarData.keyOf t n).bind fun key => d.addVar key ⟨n, trimQuotes v⟩ pos) = some d' ∧ d'.table = [] ∧
        d'.scopes = s' := by
    intro t n v k pos hk h
    obtain ⟨d', h1, h2⟩ := put_addVar (n := n) ht h
    exact ⟨d', by rw [keyOf_iff.2 hk]; exact h1, (addVar_put ht h1).1, h2⟩
  have sub : ∀ {t n v : Str} {pos : Int} {d' : VarData},
      ((VarData.keyOf t n).bind fun key => d.addVar key ⟨n, trimQuotes v⟩ pos) = some d' →
      ∃ k, Key t n k ∧ Put k (trimQuotes v) pos d.scopes d'.scopes := by
    intro t n v pos d' h
    obtain ⟨k, hk, h⟩ := Option.bind_eq_some_iff.1 h
    exact ⟨k, keyOf_iff.1 hk, (addVar_put ht h).2⟩
  cases o with
  | pair n v pos =>
    constructor
    · intro h
      cases h with
      | pair hk hu h => exact add hk (stored_eq hu ▸ h)
    · rintro ⟨d', h, -, rfl⟩
      obtain ⟨k, hk, h⟩ := sub h
      exact .pair hk (stored_trim v) h
  | set t pos =>
    have hrun : ∀ n v, splitSet t = (n, v) → (VarOp.set t pos).run d =
        (VarData.keyOf t n).bind fun key => d.addVar key ⟨n, trimQuotes v⟩ pos := by
      intro n v e
      show VarData.addSet d t pos = _
      unfold VarData.addSet
      rw [e]
    have hc := splitSet_cases t
    constructor
    · intro h
      cases h with
      | set hn hv hk hu h =>
        rw [hrun _ _ (by unfold splitSet; rw [if_pos (by rw [hasChar_iff]; simp), splitOn_append _ _ _ hn, splitOn_none _ _ hv])]
        exact add hk (stored_eq hu ▸ h)
      | setMore hn hv hk hu h =>
        rw [hrun _ _ (by
          unfold splitSet
          rw [if_pos (by rw [hasChar_iff]; simp), List.append_assoc, List.cons_append, splitOn_append _ _ _ hn, splitOn_append _ _ _ hv])]
        exact add hk (stored_eq hu ▸ h)
      | setBare hn hk h =>
        rw [hrun _ [] (by unfold splitSet; rw [if_neg (by rw [hasChar_iff]; exact hn)])]
        exact add (v := []) hk h
    · rintro ⟨d', h, -, rfl⟩
      rcases hc with ⟨h1, h2⟩ | ⟨n, v, h1, h2, h3, h4⟩ | ⟨n, v, m, h1, h2, h3, h4⟩
      · rw [hrun _ _ h2] at h
        obtain ⟨k, hk, h⟩ := sub h
        exact .setBare h1 hk h
      · rw [hrun _ _ h4] at h
        obtain ⟨k, hk, h'⟩ := sub h
        subst h3
        exact .set h1 h2 hk (stored_trim v) h'
      · rw [hrun _ _ h4] at h
        obtain ⟨k, hk, h'⟩ := sub h
        subst h3
        exact .setMore h1 h2 hk (stored_trim v) h'
  | push =>
    have e : d.pushStack.scopes = { d.scopes with levels := d.scopes.levels ++ [fun _ => none] } := by
      unfold VarData.pushStack VarData.scopes
      simp only [List.map_append, List.map_cons, List.map_nil]
      rfl
    constructor
    · intro h
      cases h
      exact ⟨_, rfl, ht, e⟩
    · rintro ⟨d', h, -, rfl⟩
      cases h
      rw [e]
      exact .push _
  | pop =>
    have hr : VarOp.pop.run d = some { d with stack := d.stack.dropLast } := congrArg some (popStack_table ht)
    rw [hr]
    constructor
    · intro h
      refine ⟨_, rfl, ht, ?_⟩
      generalize hs : d.scopes = s at h
      cases h with
      | pop g ls l =>
        have hg : d.scopes.globals = g := congrArg Scopes.globals hs
        have hl : d.stack.map (fun (m : AMap NVar) (k : Str) => (m.get k).map NVar.value) = ls ++ [l] := congrArg Scopes.levels hs
        rw [← hg]
        unfold VarData.scopes
        simp only [List.map_dropLast, hl, List.dropLast_concat]
      | popNone g =>
        have hg : d.scopes.globals = g := congrArg Scopes.globals hs
        have hl : d.stack.map (fun (m : AMap NVar) (k : Str) => (m.get k).map NVar.value) = [] := congrArg Scopes.levels hs
        rw [← hg]
        unfold VarData.scopes
        simp only [List.map_dropLast, hl, List.dropLast_nil]
    · rintro ⟨d', h, -, rfl⟩
      cases h
      rcases List.eq_nil_or_concat d.stack with h0 | ⟨ls, l, h0⟩
      · have : ({ d with stack := d.stack.dropLast } : VarData).scopes = ⟨d.scopes.globals, []⟩ := by
          unfold VarData.scopes; simp [h0]
        rw [this]
        have : d.scopes = ⟨d.scopes.globals, []⟩ := by unfold VarData.scopes; simp [h0]
        rw [this]
        exact .popNone _
      · have e1 : ({ d with stack := d.stack.dropLast } : VarData).scopes =
            ⟨d.scopes.globals, ls.map fun m k => (m.get k).map NVar.value⟩ := by
          unfold VarData.scopes; simp [h0]
        have e2 : d.scopes = ⟨d.scopes.globals, (ls.map fun m k => (m.get k).map NVar.value) ++ [fun k => (l.get k).map NVar.value]⟩ := by
          unfold VarData.scopes; simp [h0]
        rw [e1]
        generalize d.scopes.globals = g at e2 ⊢
        rw [e2]
        exact .pop _ _ _

theorem run_table {d d' : VarData} (ht : d.table = []) {o : VarOp} (h : o.run d = some d') : d'.table = [] := by
  cases o with
  | pair n v pos =>
    obtain ⟨k, -, h⟩ := Option.bind_eq_some_iff.1 (show (VarData.keyOf n n).bind _ = _ from h)
    exact (addVar_put ht h).1
  | set t pos =>
    obtain ⟨k, -, h⟩ := Option.bind_eq_some_iff.1 (show (VarData.keyOf t (splitSet t).1).bind _ = _ from h)
    exact (addVar_put ht h).1
  | push => cases h; exact ht
  | pop =>
    cases h
    rw [popStack_table ht]
    exact ht

theorem varRun_table {d d' : VarData} (ht : d.table = []) {os : List VarOp} (h : varRun os d = some d') : d'.table = [] := by
  induction os generalizing d with
  | nil => cases h; exact ht
  | cons o os ih =>
    obtain ⟨d1, h1, h2⟩ := Option.bind_eq_some_iff.1 h
    exact ih (run_table ht h1) h2

theorem steps_iff {d : VarData} (ht : d.table = []) (os : List VarOp) (s' : Scopes) :
    Steps os d.scopes s' ↔ ∃ d', varRun os d = some d' ∧ d'.table = [] ∧ d'.scopes = s' := by
  induction os generalizing d with
  | nil =>
    constructor
    · intro h; cases h; exact ⟨d, rfl, ht, rfl⟩
    · rintro ⟨d', h, -, rfl⟩; cases h; exact .nil _
  | cons o os ih =>
    constructor
    · intro h
      cases h with
      | cons h hs =>
        obtain ⟨d1, h1, h2, rfl⟩ := (step_iff ht o _).1 h
        obtain ⟨d', h3, h4⟩ := (ih h2).1 hs
        exact ⟨d', by unfold varRun; rw [h1]; exact h3, h4⟩
    · rintro ⟨d', h, h4⟩
      unfold varRun at h
      obtain ⟨d1, h1, h2⟩ := Option.bind_eq_some_iff.1 h
      have ht1 : d1.table = [] := run_table ht h1
      exact .cons ((step_iff ht o _).2 ⟨d1, h1, ht1, rfl⟩) ((ih ht1).2 ⟨d', h2, h4⟩)

theorem lookup_scopes {d : VarData} (ht : d.table = []) (x : Str) : d.lookupVar x = d.scopes.value x := by
  unfold VarData.lookupVar Scopes.value VarData.scopes
  rw [ht]
  simp only [AMap.get, List.lookup_nil, ← List.map_reverse, List.findSome?_map]
  cases h : List.lookup x d.locals with
  | none => rfl
  | some v => rfl

theorem setGlobal_get (d : VarData) (p : Str × Str) (x : Str) :
    ((d.setGlobal p).locals.get x).map NVar.value = if x = p.1 then some p.2 else (d.locals.get x).map NVar.value := by
  unfold VarData.setGlobal
  rw [AMap.get_insert]
  split <;> rfl

theorem setGlobals_get (env : AMap Str) (hd : (env.map Prod.fst).Nodup) (d : VarData) (x : Str) :
    ((env.foldl VarData.setGlobal d).locals.get x).map NVar.value =
      (env.get x).or ((d.locals.get x).map NVar.value) := by
  induction env generalizing d with
  | nil => rfl
  | cons p env ih =>
    obtain ⟨k, v⟩ := p
    obtain ⟨h1, h2⟩ := List.nodup_cons.1 hd
    rw [List.foldl_cons, ih h2, setGlobal_get]
    unfold AMap.get
    by_cases hx : x = k
    · subst hx
      have : List.lookup x env = none := by
        rw [List.lookup_eq_none_iff]
        intro q hq
        simp only [bne_iff_ne, ne_eq]
        intro e
        exact h1 (List.mem_map.2 ⟨q, hq, e.symm⟩)
      rw [lookup_cons_self, this, if_pos rfl]
      rfl
    · rw [lookup_cons_ne hx, if_neg hx]

theorem setGlobals_keep (env : AMap Str) (d : VarData) :
    (env.foldl VarData.setGlobal d).stack = d.stack ∧ (env.foldl VarData.setGlobal d).table = d.table := by
  induction env generalizing d with
  | nil => exact ⟨rfl, rfl⟩
  | cons p env ih => exact ih _

theorem new_table (root : Bool) (ppid pid : Nat) (env : AMap Str) : (VarData.new root ppid pid env).1.table = [] :=
  ((setGlobals_keep _ _).2.trans (setGlobals_keep _ _).2 :)

theorem new_scopes (root : Bool) (ppid pid : Nat) (env : AMap Str) (hd : (env.map Prod.fst).Nodup) :
    (VarData.new root ppid pid env).1.scopes = ⟨atStart root ppid pid env, []⟩ := by
  unfold VarData.scopes
  have hs : (VarData.new root ppid pid env).1.stack = [] := ((setGlobals_keep _ _).1.trans (setGlobals_keep _ _).1 :)
  rw [hs]
  congr 1
  funext x
  unfold VarData.new VarData.defaults
  simp only [List.foldl_cons, List.foldl_nil, setGlobal_get, setGlobals_get env hd]
  unfold atStart
  repeat' split
  all_goals simp [AMap.get]

/-! ## C110 -/

/-- C110: whatever operations are performed on a new store, either all of them are possible and the value of every variable
is the one they give it, or one of them is not, and then the store crashes.  (For an environment that has no name
twice.) -/
theorem C110_exact (root : Bool) (ppid pid : Nat) (env : AMap Str) (hd : (env.map Prod.fst).Nodup) (os : List VarOp) :
    (∃ d s, varRun os (VarData.new root ppid pid env).1 = some d ∧ Steps os ⟨atStart root ppid pid env, []⟩ s ∧
      (∀ x, d.lookupVar x = s.value x) ∧ d.currentPos = s.levels.length - 1) ∨
    (varRun os (VarData.new root ppid pid env).1 = none ∧ ∀ s, ¬Steps os ⟨atStart root ppid pid env, []⟩ s) := by
  have ht := new_table root ppid pid env
  have hs := new_scopes root ppid pid env hd
  cases h : varRun os (VarData.new root ppid pid env).1 with
  | none =>
    refine .inr ⟨rfl, fun s hst => ?_⟩
    rw [← hs] at hst
    obtain ⟨d', h', -⟩ := (steps_iff ht os s).1 hst
    rw [h] at h'; cases h'
  | some d =>
    have ht' := varRun_table ht h
    refine .inl ⟨d, d.scopes, rfl, ?_, lookup_scopes ht', ?_⟩
    · rw [← hs]; exact (steps_iff ht os _).2 ⟨d, h, ht', rfl⟩
    · simp [VarData.currentPos, VarData.scopes]

/-- C110: and the environment of the process afterwards agrees with it. -/
theorem C110_environment (root : Bool) (ppid pid : Nat) (env : AMap Str) (x : Str) :
    (VarData.new root ppid pid env).2.get x = atStart root ppid pid env x := by
  unfold VarData.new VarData.defaults
  simp only [List.foldl_cons, List.foldl_nil, AMap.get_insert]
  rfl

/-! ## C111 and C112 -/

/-- The position of the innermost level. -/
def Spec.Scopes.innermost (s : Scopes) : Int := s.levels.length - 1

theorem put_level {k u : Str} {g : Str → Option Str} {ls : List (Str → Option Str)} {l : Str → Option Str} {s' : Scopes}
    (h : Put k u (Scopes.innermost ⟨g, ls ++ [l]⟩) ⟨g, ls ++ [l]⟩ s') : s' = ⟨g, ls ++ [update l k u]⟩ := by
  generalize hs : Scopes.mk g (ls ++ [l]) = s at h
  generalize hp : s.innermost = pos at h
  cases h with
  | global => subst hs; simp only [Scopes.innermost, List.length_append, List.length_cons] at hp; omega
  | level g' a b l' =>
    simp only [Scopes.mk.injEq] at hs
    obtain ⟨rfl, hs⟩ := hs
    have hb : b = [] := by
      simp only [Scopes.innermost, List.length_append, List.length_cons] at hp
      exact List.length_eq_zero_iff.1 (by omega)
    subst hb
    obtain ⟨rfl, e⟩ := List.append_inj' hs rfl
    cases e
    rfl
  | fresh => subst hs; simp only [Scopes.innermost] at hp; omega

theorem varRun_append (os os' : List VarOp) (d : VarData) : varRun (os ++ os') d = (varRun os d).bind (varRun os') := by
  induction os generalizing d with
  | nil => rfl
  | cons o os ih =>
    show (o.run d).bind (varRun (os ++ os')) = ((o.run d).bind (varRun os)).bind _
    cases o.run d with
    | none => rfl
    | some d1 => exact ih d1

theorem innermost_run (root : Bool) (ppid pid : Nat) (env : AMap Str) (hd : (env.map Prod.fst).Nodup)
    (os : List VarOp) (s : Scopes) (hos : Steps os ⟨atStart root ppid pid env, []⟩ s) (hl : s.levels ≠ [])
    (x v u : Str) (hx : Key x x x) (hu : Stored v u) :
    ∃ d, varRun (os ++ [.pair x v s.innermost]) (VarData.new root ppid pid env).1 = some d ∧ d.table = [] ∧
      d.lookupVar x = (s.globals x).or (some u) := by
  obtain ⟨g, ls⟩ := s
  obtain ⟨ls, l, rfl⟩ : ∃ a b, ls = a ++ [b] := ⟨_, _, (List.dropLast_concat_getLast hl).symm⟩
  rw [← new_scopes root ppid pid env hd] at hos
  obtain ⟨d0, h1, h2, h3⟩ := (steps_iff (new_table root ppid pid env) os _).1 hos
  have hput : Put x u (Scopes.innermost ⟨g, ls ++ [l]⟩) ⟨g, ls ++ [l]⟩ ⟨g, ls ++ [update l x u]⟩ := by
    have := Put.level (k := x) (v := u) g ls [] l
    rw [show (Scopes.innermost ⟨g, ls ++ [l]⟩) = ls.length by simp [Scopes.innermost]]
    exact this
  have hstep : Step (.pair x v (Scopes.innermost ⟨g, ls ++ [l]⟩)) d0.scopes ⟨g, ls ++ [update l x u]⟩ := by
    rw [h3]; exact .pair hx hu hput
  obtain ⟨d, h4, h5, h6⟩ := (step_iff h2 _ _).1 hstep
  refine ⟨d, ?_, h5, ?_⟩
  · rw [varRun_append, h1]
    show (VarOp.run _ d0).bind _ = _
    rw [h4]; rfl
  · rw [lookup_scopes h5, h6]
    unfold Scopes.value
    simp [update]

/-- C111, as far as it holds: a variable set at the innermost level has that value, if there is no global variable of
that name.  (What is missing is the very case of a global variable with the same name; see below.) -/
theorem C111_innermost_partial (root : Bool) (ppid pid : Nat) (env : AMap Str) (hd : (env.map Prod.fst).Nodup)
    (os : List VarOp) (s : Scopes) (hos : Steps os ⟨atStart root ppid pid env, []⟩ s) (hl : s.levels ≠ [])
    (x v u : Str) (hx : Key x x x) (hu : Stored v u) (hg : s.globals x = none) :
    ∃ d, varRun (os ++ [.pair x v s.innermost]) (VarData.new root ppid pid env).1 = some d ∧ d.lookupVar x = some u := by
  obtain ⟨d, h1, h2, h3⟩ := innermost_run root ppid pid env hd os s hos hl x v u hx hu
  refine ⟨d, h1, ?_⟩
  rw [h3, hg]
  rfl

/-- C111 fails whenever there is a global variable of that name: it hides the local one. -/
theorem C111_hidden (root : Bool) (ppid pid : Nat) (env : AMap Str) (hd : (env.map Prod.fst).Nodup)
    (os : List VarOp) (s : Scopes) (hos : Steps os ⟨atStart root ppid pid env, []⟩ s) (hl : s.levels ≠ [])
    (x v g : Str) (hx : Key x x x) (hg : s.globals x = some g) :
    ∃ d, varRun (os ++ [.pair x v s.innermost]) (VarData.new root ppid pid env).1 = some d ∧ d.lookupVar x = some g := by
  obtain ⟨d, h1, h2, h3⟩ := innermost_run root ppid pid env hd os s hos hl x v _ hx (stored_trim v)
  exact ⟨d, h1, by rw [h3, hg]; rfl⟩

/-- C111 fails. -/
theorem C111_counterexample :
    ((varRun [.pair (cs!"X") (cs!"a") (-1), .push, .pair (cs!"X") (cs!"b") 0] (VarData.new false 1 2 []).1).map
      fun d => d.lookupVar (cs!"X")) = some (some (cs!"a")) := by decide +kernel

/-- What happens at one level: variables are set at the innermost level (its position is `n`), and further levels are begun
and ended. -/
inductive Spec.Block : Nat → List VarOp → Prop
  | nil (n : Nat) : Block n []
  | pair {n : Nat} (x v : Str) {os : List VarOp} (h : Block n os) : Block n (.pair x v n :: os)
  | set {n : Nat} (t : Str) {os : List VarOp} (h : Block n os) : Block n (.set t n :: os)
  | nested {n : Nat} {b os : List VarOp} (hb : Block (n + 1) b) (h : Block n os) : Block n (.push :: (b ++ .pop :: os))

theorem steps_append {os os' : List VarOp} {s s' : Scopes} (h : Steps (os ++ os') s s') :
    ∃ s1, Steps os s s1 ∧ Steps os' s1 s' := by
  induction os generalizing s with
  | nil => exact ⟨s, .nil _, h⟩
  | cons o os ih =>
    cases h with
    | cons h hs =>
      obtain ⟨s1, h1, h2⟩ := ih hs
      exact ⟨s1, .cons h h1, h2⟩

theorem block_steps {n : Nat} {os : List VarOp} (hb : Block n os) {g : Str → Option Str} {ls : List (Str → Option Str)}
    {l : Str → Option Str} {s' : Scopes} (hn : ls.length = n) (h : Steps os ⟨g, ls ++ [l]⟩ s') :
    ∃ l', s' = ⟨g, ls ++ [l']⟩ := by
  have hpos : ∀ {n : Nat} {ls : List (Str → Option Str)} {l : Str → Option Str}, ls.length = n →
      (n : Int) = Scopes.innermost ⟨g, ls ++ [l]⟩ := by
    intro n ls l h; simp [Scopes.innermost, h]
  induction hb generalizing ls l s' with
  | nil => cases h; exact ⟨l, rfl⟩
  | pair x v _ ih =>
    cases h with
    | cons h hs =>
      cases h with
      | pair hk hu h =>
        rw [hpos hn (l := l)] at h
        rw [put_level h] at hs
        exact ih hn hs
  | set t _ ih =>
    cases h with
    | @cons _ _ _ s1 _ h hs =>
      have : ∃ l1, s1 = Scopes.mk g (ls ++ [l1]) := by
        cases h with
        | set _ _ _ _ h => rw [hpos hn (l := l)] at h; exact ⟨_, put_level h⟩
        | setMore _ _ _ _ h => rw [hpos hn (l := l)] at h; exact ⟨_, put_level h⟩
        | setBare _ _ h => rw [hpos hn (l := l)] at h; exact ⟨_, put_level h⟩
      obtain ⟨l1, rfl⟩ := this
      exact ih hn hs
  | nested _ _ ihb ih =>
    cases h with
    | cons h hs =>
      cases h
      obtain ⟨s1, h1, h2⟩ := steps_append hs
      obtain ⟨l1, rfl⟩ := ihb (ls := ls ++ [l]) (l := fun _ => none) (by simp [hn]) h1
      cases h2 with
      | cons h h2 =>
        generalize hs1 : Scopes.mk g (ls ++ [l] ++ [l1]) = s1 at h
        cases h with
        | pop g' ls' l' =>
          simp only [Scopes.mk.injEq] at hs1
          obtain ⟨rfl, e⟩ := hs1
          obtain ⟨rfl, -⟩ := List.append_inj' e rfl
          exact ih hn h2
        | popNone => simp at hs1

/-- C112: what is set at a level is gone when the level ends: after it every variable has the value it had before. -/
theorem C112_restored (root : Bool) (ppid pid : Nat) (env : AMap Str)
    (os : List VarOp) (d : VarData) (hos : varRun os (VarData.new root ppid pid env).1 = some d)
    (n : Nat) (hn : d.currentPos + 1 = n) (b : List VarOp) (hb : Block n b) (d' : VarData)
    (h : varRun (.push :: (b ++ [.pop])) d = some d') :
    (∀ x, d'.lookupVar x = d.lookupVar x) ∧ d'.currentPos = d.currentPos := by
  have ht := varRun_table (new_table root ppid pid env) hos
  have ht' := varRun_table ht h
  have hs := (steps_iff ht _ _).2 ⟨d', h, ht', rfl⟩
  have hsame : d'.scopes = d.scopes := by
    have hl : d.scopes.levels.length = n := by
      simp only [VarData.scopes, List.length_map]
      simp only [VarData.currentPos] at hn
      omega
    generalize d.scopes = s at hs hl
    generalize d'.scopes = s' at hs
    obtain ⟨g, ls⟩ := s
    cases hs with
    | cons h hs =>
      cases h
      obtain ⟨s1, h1, h2⟩ := steps_append hs
      obtain ⟨l1, rfl⟩ := block_steps hb hl h1
      cases h2 with
      | cons h h2 =>
        cases h2
        generalize hs1 : Scopes.mk g (ls ++ [l1]) = s1 at h
        cases h with
        | pop g' ls' l' =>
          simp only [Scopes.mk.injEq] at hs1
          obtain ⟨rfl, e⟩ := hs1
          obtain ⟨rfl, -⟩ := List.append_inj' e rfl
          rfl
        | popNone => simp at hs1
  refine ⟨fun x => by rw [lookup_scopes ht, lookup_scopes ht', hsame], ?_⟩
  have := congrArg (fun s : Scopes => s.levels.length) hsame
  simp only [VarData.scopes, List.length_map] at this
  simp [VarData.currentPos, this]

/-! ## C113 -/

theorem splitOn_join (p : Char) (d : Str) (ds : List Str) (h : ∀ x ∈ d :: ds, p ∉ x) :
    splitOn p (d ++ ds.flatMap fun x => p :: x) = d :: ds := by
  induction ds generalizing d with
  | nil => rw [List.flatMap_nil, List.append_nil, splitOn_none _ _ (h d List.mem_cons_self)]
  | cons e ds ih =>
    rw [List.flatMap_cons, List.cons_append, splitOn_append _ _ _ (h d List.mem_cons_self),
      ih e fun x hx => h x (List.mem_cons_of_mem _ hx)]

theorem splitOn_complete (p : Char) (t : Str) :
    ∃ d ds, splitOn p t = d :: ds ∧ t = d ++ (ds.flatMap fun x => p :: x) ∧ ∀ x ∈ d :: ds, p ∉ x := by
  suffices h : ∀ n (t : Str), t.length ≤ n → ∃ d ds, splitOn p t = d :: ds ∧ t = d ++ (ds.flatMap fun x => p :: x) ∧
      ∀ x ∈ d :: ds, p ∉ x from h t.length t (Nat.le_refl _)
  intro n
  induction n with
  | zero =>
    intro t ht
    obtain rfl : t = [] := List.length_eq_zero_iff.1 (by omega)
    exact ⟨[], [], rfl, rfl, by simp⟩
  | succ n ih =>
    intro t ht
    by_cases hp : p ∈ t
    · obtain ⟨a, b, rfl, ha⟩ := List.eq_append_cons_of_mem hp
      obtain ⟨d, ds, h1, h2, h3⟩ := ih b (by simp at ht; omega)
      refine ⟨a, d :: ds, by rw [splitOn_append _ _ _ ha, h1], ?_, ?_⟩
      · rw [List.flatMap_cons, List.cons_append, ← h2]
      · intro x hx
        rcases List.mem_cons.1 hx with rfl | hx
        · exact ha
        · exact h3 x hx
    · exact ⟨t, [], splitOn_none _ _ hp, by simp, by simpa using hp⟩

/-- C113: the program found for a command is that of the first directory of PATH that has a regular file of that name; none is
found exactly if no directory has one. -/
theorem C113_first (isFile : Str → Bool) (d : VarData) (dir : Str) (dirs : List Str) (h : ∀ x ∈ dir :: dirs, ':' ∉ x)
    (hp : d.lookupVar (cs!"PATH") = some (dir ++ dirs.flatMap fun x => ':' :: x)) (cmd : Str) :
    (∃ a e b, dir :: dirs = a ++ e :: b ∧ isFile (e ++ cs!"/" ++ cmd) = true ∧ (∀ x ∈ a, isFile (x ++ cs!"/" ++ cmd) = false) ∧
      d.lookupCommand isFile cmd = some (some (e ++ cs!"/" ++ cmd))) ∨
    ((∀ x ∈ dir :: dirs, isFile (x ++ cs!"/" ++ cmd) = false) ∧ d.lookupCommand isFile cmd = some none) := by
  unfold VarData.lookupCommand
  rw [hp, Option.map_some, splitOn_join _ _ _ h]
  have hw : ∀ x : Str, x ++ cs!"/" ++ cmd = x ++ '/' :: cmd := fun x => by simp
  simp only [hw]
  generalize dir :: dirs = l
  induction l with
  | nil => exact .inr ⟨by simp, rfl⟩
  | cons x l ih =>
    cases hx : isFile (x ++ '/' :: cmd) with
    | true => exact .inl ⟨[], x, l, rfl, hx, by simp, by simp [hx]⟩
    | false =>
      rw [List.map_cons, List.find?_cons_of_neg (by simp [hx])]
      rcases ih with ⟨a, e, b, h1, h2, h3, h4⟩ | ⟨h1, h2⟩
      · refine .inl ⟨x :: a, e, b, by rw [h1]; rfl, h2, ?_, h4⟩
        intro y hy
        rcases List.mem_cons.1 hy with rfl | hy
        · exact hx
        · exact h3 y hy
      · refine .inr ⟨?_, h2⟩
        intro y hy
        rcases List.mem_cons.1 hy with rfl | hy
        · exact hx
        · exact h1 y hy

/-- Global variables stay. -/
theorem step_globals {o : VarOp} {s s' : Scopes} (h : Step o s s') (x : Str) (hx : s.globals x ≠ none) :
    s'.globals x ≠ none := by
  have put : ∀ {k u : Str} {pos : Int} {s s' : Scopes}, Put k u pos s s' → s.globals x ≠ none → s'.globals x ≠ none := by
    intro k u pos s s' h hx
    cases h with
    | global =>
      unfold update
      show (if x = k then _ else _) ≠ none
      split
      · simp
      · exact hx
    | level => exact hx
    | fresh => exact hx
  cases h with
  | pair _ _ h => exact put h hx
  | set _ _ _ _ h => exact put h hx
  | setMore _ _ _ _ h => exact put h hx
  | setBare _ _ h => exact put h hx
  | push => exact hx
  | pop => exact hx
  | popNone => exact hx

/-- C113: in every store there is a PATH, so looking for a command never crashes. -/
theorem C113_path (root : Bool) (ppid pid : Nat) (env : AMap Str) (hd : (env.map Prod.fst).Nodup) (os : List VarOp)
    (d : VarData) (h : varRun os (VarData.new root ppid pid env).1 = some d) (isFile : Str → Bool) (cmd : Str) :
    d.lookupCommand isFile cmd ≠ none := by
  rcases C110_exact root ppid pid env hd os with ⟨d', s, h1, h2, h3, -⟩ | ⟨h1, -⟩
  · rw [h] at h1
    cases h1
    have : ∀ {os : List VarOp} {s s' : Scopes}, Steps os s s' → s.globals (cs!"PATH") ≠ none → s'.globals (cs!"PATH") ≠ none := by
      intro os s s' h
      induction h with
      | nil => exact id
      | cons h _ ih => exact fun hx => ih (step_globals h _ hx)
    have hg := this h2 (by simp [atStart])
    unfold VarData.lookupCommand
    rw [h3]
    unfold Scopes.value
    cases hv : s.globals (cs!"PATH") with
    | none => exact absurd hv hg
    | some p => simp
  · rw [h] at h1; cases h1

/-! ## C114 -/

/-- C114, as far as it holds: after a positional parameter is set by its number, however written, its value is found under that
number. -/
theorem C114_pair_partial (root : Bool) (ppid pid : Nat) (env : AMap Str) (os : List VarOp) (d : VarData)
    (hos : varRun os (VarData.new root ppid pid env).1 = some d) (ds v u : Str) (hds : Digits ds)
    (hn : decimal ds < 18446744073709551616) (hu : Stored v u) :
    ∃ d', d.addPair ds v (-1) = some d' ∧ d'.lookupVar (natStr (decimal ds)) = some u := by
  have ht := varRun_table (new_table root ppid pid env) hos
  obtain ⟨hne, hds⟩ := hds
  have hf : ds.filter (fun c => decide (Digit c)) = ds := List.filter_eq_self.2 fun c hc => decide_eq_true (hds c hc)
  have hk : Key ds ds (natStr (decimal ds)) := by
    obtain ⟨c, t, rfl⟩ := List.exists_cons_of_ne_nil hne
    have := Key.number (text := c :: t) (name := c :: t) rfl (hds c List.mem_cons_self) (by rw [hf]; exact hn)
    rw [hf] at this
    exact this
  obtain ⟨d', h1, h2, h3⟩ := (step_iff ht (.pair ds v (-1)) _).1 (.pair hk hu (.global _))
  refine ⟨d', h1, ?_⟩
  rw [lookup_scopes h2, h3]
  simp [Scopes.value, update]

/-- C114, as far as it holds: the same for a text `number=value`, if there is no digit in the value. -/
theorem C114_set_partial (root : Bool) (ppid pid : Nat) (env : AMap Str) (os : List VarOp) (d : VarData)
    (hos : varRun os (VarData.new root ppid pid env).1 = some d) (ds v u : Str) (hds : Digits ds)
    (hn : decimal ds < 18446744073709551616) (hv : '=' ∉ v) (hvd : ∀ c ∈ v, ¬Digit c) (hu : Stored v u) :
    ∃ d', d.addSet (ds ++ cs!"=" ++ v) (-1) = some d' ∧ d'.lookupVar (natStr (decimal ds)) = some u := by
  have ht := varRun_table (new_table root ppid pid env) hos
  obtain ⟨hne, hds⟩ := hds
  have e : ds ++ cs!"=" ++ v = ds ++ '=' :: v := by simp
  rw [e]
  have hf : (ds ++ '=' :: v).filter (fun c => decide (Digit c)) = ds := by
    rw [List.filter_append, List.filter_cons_of_neg (by decide), List.filter_eq_self.2 fun c hc => decide_eq_true (hds c hc),
      List.filter_eq_nil_iff.2 fun c hc => by simpa using hvd c hc, List.append_nil]
  have hk : Key (ds ++ '=' :: v) ds (natStr (decimal ds)) := by
    obtain ⟨c, t, rfl⟩ := List.exists_cons_of_ne_nil hne
    have := Key.number (text := c :: t ++ '=' :: v) (name := c :: t) rfl (hds c List.mem_cons_self) (by rw [hf]; exact hn)
    rw [hf] at this
    exact this
  have heq : '=' ∉ ds := fun e => absurd (hds _ e) (by decide)
  obtain ⟨d', h1, h2, h3⟩ := (step_iff ht (.set (ds ++ '=' :: v) (-1)) _).1 (.set heq hv hk hu (.global _))
  refine ⟨d', h1, ?_⟩
  rw [lookup_scopes h2, h3]
  simp [Scopes.value, update]

/-- C114 fails: `1=23` sets the parameter 123. -/
theorem C114_counterexample :
    (((VarData.new false 1 2 []).1.addSet (cs!"1=23") (-1)).map fun d =>
      (d.lookupVar (cs!"1"), d.lookupVar (cs!"123"))) = some (none, some (cs!"23")) := by decide +kernel

/-! ## C115 -/

theorem joinColon_eq (d : Str) (ds : List Str) : ImportantVars.joinColon (d :: ds) = d ++ ds.flatMap fun x => ':' :: x := by
  induction ds generalizing d with
  | nil => simp [ImportantVars.joinColon]
  | cons e ds ih => rw [ImportantVars.joinColon, ih]; simp; simp

/-- What is exported under each name. -/
def Spec.exportedValue (i : ImportantVars) (x : Str) : Option Str :=
  if x = cs!"HOME" then some i.home
  else if x = cs!"PWD" then some i.pwd
  else if x = cs!"PS1" then some i.ps1
  else if x = cs!"PS2" then some i.ps2
  else if x = cs!"PS4" then some i.ps4
  else if x = cs!"PPID" then some (natStr i.ppid)
  else if x = cs!"PID" then some (natStr i.pid)
  else none

theorem exportEnv_get (i : ImportantVars) (env : AMap Str) (x : Str) :
    (i.exportEnv env).get x = if x = cs!"PATH" then some (ImportantVars.joinColon i.path) else
      (exportedValue i x).or (env.get x) := by
  unfold ImportantVars.exportEnv exportedValue
  simp only [List.foldl_cons, List.foldl_nil, AMap.get_insert]
  by_cases h1 : x = cs!"PATH"
  · subst h1; simp
  by_cases h2 : x = cs!"HOME"
  · subst h2; simp
  by_cases h3 : x = cs!"PWD"
  · subst h3; simp
  by_cases h4 : x = cs!"PS1"
  · subst h4; simp
  by_cases h5 : x = cs!"PS2"
  · subst h5; simp
  by_cases h6 : x = cs!"PS4"
  · subst h6; simp
  by_cases h7 : x = cs!"PPID"
  · subst h7; simp
  by_cases h8 : x = cs!"PID"
  · subst h8; simp
  simp only [h1, h2, h3, h4, h5, h6, h7, h8, if_false, Option.none_or]

/-- C115: exporting gives every important variable its value in the environment and keeps the others; after the path has been
set, PATH is the text that was given. -/
theorem C115_export (i : ImportantVars) (p : Str) (env : AMap Str) :
    ((i.setPath p).exportEnv env).get (cs!"PATH") = some p ∧
    ∀ x, x ≠ cs!"PATH" → ((i.setPath p).exportEnv env).get x = (exportedValue i x).or (env.get x) := by
  have : ImportantVars.joinColon (i.setPath p).path = p := by
    obtain ⟨d, ds, h1, h2, -⟩ := splitOn_complete ':' p
    show ImportantVars.joinColon (splitOn ':' p) = p
    rw [h1, joinColon_eq, ← h2]
  refine ⟨?_, fun x hx => ?_⟩
  · rw [exportEnv_get, if_pos rfl, this]
  · rw [exportEnv_get, if_neg hx]; rfl

/-- C115: the defaults, with the same path as a new store. -/
theorem C115_default (root : Bool) (ppid pid : Nat) (cwd : Str) (env : AMap Str) (x : Str)
    (hx : x ∈ [cs!"PATH", cs!"PS1", cs!"PS2", cs!"PS4", cs!"PPID", cs!"PID"]) :
    ((ImportantVars.default root ppid pid cwd env).exportEnv env).get x = atStart root ppid pid env x := by
  rw [exportEnv_get]
  simp only [List.mem_cons, List.not_mem_nil, or_false] at hx
  rcases hx with rfl | rfl | rfl | rfl | rfl | rfl
  · rw [if_pos rfl]; rfl
  all_goals simp [exportedValue, atStart, ImportantVars.default]

/-- C115: the other defaults: the home directory is that of the environment, or `/root` if it has none; the directory is the
current one; everything else in the environment stays. -/
theorem C115_home (root : Bool) (ppid pid : Nat) (cwd : Str) (env : AMap Str) :
    ((ImportantVars.default root ppid pid cwd env).exportEnv env).get (cs!"HOME") = some ((env.get (cs!"HOME")).getD (cs!"/root")) ∧
    ((ImportantVars.default root ppid pid cwd env).exportEnv env).get (cs!"PWD") = some cwd ∧
    ∀ x, x ∉ [cs!"HOME", cs!"PWD", cs!"PATH", cs!"PS1", cs!"PS2", cs!"PS4", cs!"PPID", cs!"PID"] →
      ((ImportantVars.default root ppid pid cwd env).exportEnv env).get x = env.get x := by
  simp only [exportEnv_get]
  refine ⟨rfl, rfl, fun x hx => ?_⟩
  simp only [List.mem_cons, List.not_mem_nil, or_false, not_or] at hx
  simp [exportedValue, hx]

/-- C115: setting the history file is the only thing that changes what is saved. -/
theorem C115_history (i : ImportantVars) (v : NVar) :
    (i.setVar v).makeIntoVars = if v.name = cs!"HISTFILE" then [v.text] else i.makeIntoVars := by
  unfold ImportantVars.setVar ImportantVars.makeIntoVars NVar.text
  split
  · next h => rw [h]; rfl
  · rfl

/-- C115: the path can be updated by its value, by `PATH=value`, whatever comes before the sign, or by a pair, and nothing else
is changed; with the character NUL in the value the shell crashes. -/
theorem C115_update (env : AMap Str) (n v : Str) (hn : '=' ∉ n) (hv : '=' ∉ v) :
    ('\x00' ∉ v → ∃ e, (∀ x, e.get x = if x = cs!"PATH" then some v else env.get x) ∧
        VarData.updatePath env v = some e ∧ VarData.updatePath env (n ++ cs!"=" ++ v) = some e ∧
        VarData.updatePathPair env n v = some (if n = cs!"PATH" then e else env)) ∧
    ('\x00' ∈ v → VarData.updatePath env v = none ∧ VarData.updatePath env (n ++ cs!"=" ++ v) = none ∧
        VarData.updatePathPair env n v = if n = cs!"PATH" then none else some env) := by
  have h1 : VarData.updatePath env v = VarData.setPath env v := by
    unfold VarData.updatePath
    rw [if_neg (by rw [hasChar_iff]; exact hv)]
  have h2 : VarData.updatePath env (n ++ cs!"=" ++ v) = VarData.setPath env v := by
    unfold VarData.updatePath
    rw [if_pos (by rw [hasChar_iff]; simp), show n ++ cs!"=" ++ v = n ++ '=' :: v by simp, splitOn_append _ _ _ hn,
      splitOn_none _ _ hv]
  rw [h1, h2]
  unfold VarData.updatePathPair VarData.setPath
  refine ⟨fun h => ⟨env.insert (cs!"PATH") v, fun x => AMap.get_insert .., ?_⟩, fun h => ?_⟩
  · rw [if_neg (by rw [hasChar_iff]; exact h)]
    exact ⟨rfl, rfl, by split <;> rfl⟩
  · rw [if_pos (by rw [hasChar_iff]; exact h)]
    exact ⟨rfl, rfl, rfl⟩

/-! ## Examples -/

/-- `C110_exact` is about sequences like this one, where nothing crashes … -/
example : ∃ d, varRun [.pair (cs!"X") (cs!"'a b'") (-1), .push, .set (cs!"Y=\"c\"") 0, .set (cs!"Z=1") 1, .pop, .set (cs!"007") 0]
    (VarData.new false 1 2 [(cs!"HOME", cs!"/h")]).1 = some d ∧ d.lookupVar (cs!"X") = some (cs!"a b") ∧
      d.lookupVar (cs!"Y") = some (cs!"c") ∧ d.lookupVar (cs!"Z") = none ∧ d.lookupVar (cs!"7") = some [] ∧
      d.lookupVar (cs!"HOME") = some (cs!"/h") :=
  ⟨_, rfl, by decide +kernel, by decide +kernel, by decide +kernel, by decide +kernel, by decide +kernel⟩

/-- … and like these, where something does. -/
example : varRun [.push, .pair (cs!"X") [] 2] (VarData.new false 1 2 []).1 = none ∧
    varRun [.pair (cs!"X") [] (-2)] (VarData.new false 1 2 []).1 = none ∧
    varRun [.set [] (-1)] (VarData.new false 1 2 []).1 = none ∧
    varRun [.set (cs!"18446744073709551616=x") (-1)] (VarData.new false 1 2 []).1 = none := by decide +kernel

/-- `C111_innermost_partial` applies. -/
example : ∃ d, varRun ([.push] ++ [.pair (cs!"X") (cs!"b") 0]) (VarData.new false 1 2 []).1 = some d ∧
    d.lookupVar (cs!"X") = some (cs!"b") :=
  C111_innermost_partial false 1 2 [] (by decide) [.push] ⟨atStart false 1 2 [], [fun _ => none]⟩ (.cons (.push _) (.nil _))
    (by simp) (cs!"X") (cs!"b") (cs!"b") (.name rfl (by decide)) (stored_trim _) (by decide)

/-- `C112_restored` applies. -/
example : Block 1 [.pair (cs!"X") (cs!"b") 1, .push, .set (cs!"X=c") 2, .pop, .set (cs!"Y=c") 1] ∧
    (varRun [.push, .set (cs!"X=a") 0] (VarData.new false 1 2 []).1).map VarData.currentPos = some 0 ∧
    (varRun ([.push, .set (cs!"X=a") 0] ++
      (.push :: ([.pair (cs!"X") (cs!"b") 1, .push, .set (cs!"X=c") 2, .pop, .set (cs!"Y=c") 1] ++ [.pop])))
      (VarData.new false 1 2 []).1).isSome = true :=
  ⟨.pair _ _ (.nested (b := [.set (cs!"X=c") 2]) (.set _ (.nil _)) (.set _ (.nil _))), by decide +kernel, by decide +kernel⟩

/-- `C113_first` applies. -/
example : (VarData.new false 1 2 []).1.lookupVar (cs!"PATH") = some (cs!"/bin" ++ [cs!"/usr/local/sbin", cs!"/usr/local/bin",
      cs!"/usr/sbin", cs!"/usr/bin", cs!"/sbin", cs!"/bin"].flatMap fun x => ':' :: x) ∧
    (VarData.new false 1 2 []).1.lookupCommand (fun f => decide (f = cs!"/usr/bin/ls")) (cs!"ls") = some (some (cs!"/usr/bin/ls")) := by
  decide +kernel

/-- `C114_pair_partial` and `C114_set_partial` apply. -/
example : varRun [] (VarData.new false 1 2 []).1 = some (VarData.new false 1 2 []).1 ∧ Digits (cs!"007") ∧ decimal (cs!"007") = 7 ∧ Stored (cs!"'a'") (cs!"a") ∧
    ∀ c ∈ cs!"'a'", ¬Digit c :=
  ⟨rfl, ⟨by decide, by decide⟩, by decide, stored_trim _, by decide⟩

end Rsh
