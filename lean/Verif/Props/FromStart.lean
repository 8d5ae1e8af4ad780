import Verif.Props.Fns
import Verif.Props.Startup
import Verif.Props.Announces
import Verif.Props.StartFiles
import Verif.Props.Programs

/-!
# Properties C165 and C166: scripts, programs and sessions, from the start of the shell to its end
-/

namespace Rsh

open Spec

/-! ## The reference -/

/-- How the shell is started: whether by the superuser, the numbers of its parent and itself, its directory and
environment, and the programs in `~/.rshrc` and `~/.profile`, if there are any. -/
structure Spec.Origin where
  root : Bool
  ppid : Nat
  pid : Nat
  cwd : Str
  env : AMap Str
  rc : Option FnLine := none
  profile : Option FnLine := none

/-- The shell, before it does anything; `waits` are the reports of the operating system that will come. -/
def Spec.Origin.sh (b : Origin) (waits : List WRes) : Sh := initSh b.root b.ppid b.pid b.cwd b.env waits

/-- Its variables: those of the environment and the defaults. -/
def Spec.Origin.vars (b : Origin) : Scope :=
  fun x => (b.env.lookup x).or ((defaults b.root b.ppid b.pid b.cwd).lookup x)

/-- What is in the start-up files. -/
def Spec.Origin.starting (b : Origin) : List FnLine := b.rc.toList ++ b.profile.toList

/-- The reference at the beginning of the script `name` with the parameters `ps`. -/
def Spec.Origin.ref (b : Origin) (name : Str) (ps : List Str) : FnState :=
  { scopes := (fun x => if x = cs!"0" then some name else none) :: bindIn 1 ps [b.vars]
    defs := fun _ => none, cwd := b.cwd, status := 0, recorded := 0, started := 0 }

/-- The start-up files: none of them may fail.  After `exit` nothing more is done. -/
def Spec.FnWorld.startUp (u : FnWorld) (d : Nat) : List FnLine → FnState → Option FnState
  | [], σ => some σ
  | l :: ls, σ => (u.line d σ l).bind fun τ =>
    match τ.stop with
    | none => u.startUp d ls τ
    | some (.exited _) => some τ
    | some (.failed _) => none

/-- The start-up files, and then the lines. -/
def Spec.FnWorld.whole (u : FnWorld) (d : Nat) (b : Origin) (name : Str) (ps : List Str) (lines : List FnLine) :
    Option FnState :=
  (u.startUp d b.starting (b.ref name ps)).bind fun σ => u.session d σ lines

/-- What the shell itself writes while it runs the start-up files. -/
def Spec.FnWorld.startTalk (u : FnWorld) (d : Nat) : List FnLine → FnState → List Str
  | [], _ => []
  | l :: ls, σ =>
    match u.line d σ l with
    | none => []
    | some τ => τ.said ++ if τ.stop = none then u.startTalk d ls τ else []

/-- What the shell itself writes while it runs a script: what the commands say.  There are no prompts, and no messages for
lines that fail. -/
def Spec.FnWorld.scriptTalk (u : FnWorld) (d : Nat) : FnState → List FnLine → List Str
  | _, [] => []
  | σ, l :: ls =>
    if σ.ended.isSome then []
    else match u.line d σ l with
      | none => []
      | some τ => τ.said ++ u.scriptTalk d τ ls

/-- What the shell itself writes from its start to the end of the script, but for what it says of its arguments. -/
def Spec.FnWorld.wholeTalk (u : FnWorld) (d : Nat) (b : Origin) (name : Str) (ps : List Str) (lines : List FnLine) : List Str :=
  u.startTalk d b.starting (b.ref name ps) ++
    match u.startUp d b.starting (b.ref name ps) with
    | none => []
    | some σ => u.scriptTalk d σ lines

/-- The same for a session. -/
def Spec.FnWorld.wholeSession (u : FnWorld) (d : Nat) (b : Origin) (ts : List Str) (lines : List FnLine) : List Str :=
  u.startTalk d b.starting (b.ref (cs!"rsh") []) ++
    match u.startUp d b.starting (b.ref (cs!"rsh") []) with
    | none => []
    | some σ => u.talk d σ ts lines

/-- What the shell says of its arguments (C127). -/
def Spec.argTalk (w : World) (argv0 : Str) : List Str → List Str
  | [] => []
  | a :: as => ((argv0 :: readArgs (a :: as)).map (cs!"arg: " ++ ·) ++ ((programWords (a :: as)).map w.argsMsg).toList).map
      (· ++ ['\n'])

/-- If the file holds no program it is missing or blank: nothing is said about it. -/
def Spec.SilentFile (w : World) (p : Str) (o : Option FnLine) : Prop :=
  o = none → ∀ tr, w.readFile tr p = .missing ∨ ∃ t, w.readFile tr p = .text t ∧ parse t = some none

/-- Nothing is said about the start-up files. -/
def Spec.SilentStart (w : World) (b : Origin) : Prop :=
  SilentFile w (cs!"~/.rshrc") b.rc ∧ SilentFile w (cs!"~/.profile") b.profile

/-- The shell itself wrote exactly this, to its standard output. -/
def Spec.WroteAll (s : Sh) (out : List Str) : Prop := printed s.trace = out.map fun t => (some (.orig 1), t)

/-- There is no program in the file: it is missing, blank, no text or no program. -/
def Spec.NoProgram : FileRead → Prop
  | .text t => parse t = none ∨ parse t = some none
  | _ => True

/-- There is no program in the file, or it is the one given, in any layout. -/
def Spec.StartFile (w : World) (p : Str) : Option FnLine → Prop
  | none => ∀ tr, NoProgram (w.readFile tr p)
  | some l => ∃ t, (∀ tr, w.readFile tr p = .text t) ∧ parse t = parse l.text

/-- The start-up files are those given, and the outside world is as the reference assumes; the lines are typed properly. -/
structure Spec.OriginOk (w : World) (u : FnWorld) (b : Origin) (lines : List FnLine) : Prop where
  env : (b.env.map Prod.fst).Nodup
  values : ∀ x v, Unqualified x → b.vars x = some v → CleanValue v
  rc : StartFile w (cs!"~/.rshrc") b.rc
  profile : StartFile w (cs!"~/.profile") b.profile
  res : Resources w
  pids : ∀ tr, w.fork tr = some (u.pid (forks tr))
  inj : ∀ i j, u.pid i = u.pid j → i = j
  dirs : ∀ tr c d, w.chdir tr c d = u.dirs c d
  texts : ∀ t r, u.means t = some r → TextIs w u (b.sh []) t r
  files : ∀ p r, u.text p = some r → FileIs w u (b.sh []) p r
  absent : ∀ x, u.missing x = true → Absent w (b.sh []) x
  msgs : w.osMsg = u.osMsg ∧ ∀ t, w.parseMsg t = u.parseMsg t
  lines : ∀ l ∈ b.starting ++ lines, FnLineOk w u (b.sh []) l

/-- In the end, the shell did what the reference did. -/
structure Spec.Followed (u : FnWorld) (b : Origin) (τ : FnState) (s : Sh) : Prop where
  values : ∀ x, Unqualified x → valueOf s x = seen τ.scopes x
  functions : ∀ f, Unqualified f → Defined τ.defs s f
  cwd : s.cwd = τ.cwd
  status : s.exitStatus = τ.recorded
  ran : ∃ groups, FnRan (fun x => (u.file x).getD []) (b.sh []) τ.ran groups ∧ execs s.trace = groups.flatten
  forks : Spec.forks s.trace = τ.started
  jobs : s.jc.table = []
  env : ∀ x, s.env.get x = (τ.exports.lookup x).or (b.env.get x)

/-! ## The beginning -/

theorem bindIn_one (ps : List Str) : ∀ (i : Nat) (sc : Scope), ∃ sc', bindIn i ps [sc] = [sc'] ∧
    (∀ j a, ps[j]? = some a → sc' (natStr (i + j)) = some a) ∧
    ∀ x, (∀ j, j < ps.length → x ≠ natStr (i + j)) → sc' x = sc x := by
  induction ps with
  | nil => intro i sc; exact ⟨sc, rfl, by simp, fun _ _ => rfl⟩
  | cons p ps ih =>
    intro i sc
    obtain ⟨sc', h1, h2, h3⟩ := ih (i + 1) (sc.put (natStr i) p)
    refine ⟨sc', ?_, ?_, ?_⟩
    · rw [← h1, bindIn]
      congr 1
      show (if _ then _ else _) = _
      rw [if_pos (.inr rfl)]
    · intro j a ha
      cases j with
      | zero =>
        simp only [List.getElem?_cons_zero, Option.some.injEq] at ha
        subst ha
        rw [Nat.add_zero, h3 _ fun j _ e => by have := natStr_inj e; omega]
        simp [Scope.put]
      | succ j =>
        have := h2 j a ha
        rwa [show i + 1 + j = i + (j + 1) by omega] at this
    · intro x hx
      rw [h3 x fun j hj => by
        have := hx (j + 1) (by simpa using hj)
        rwa [show i + (j + 1) = i + 1 + j by omega] at this]
      unfold Scope.put
      exact if_neg (hx 0 (by simp))

theorem allPassable_get {ps : List Str} : ∀ {i : Nat}, AllPassable i ps → ∀ j a, ps[j]? = some a → Passable (i + j) a := by
  induction ps with
  | nil => intro i _ j a h; simp at h
  | cons p ps ih =>
    intro i h j a ha
    cases j with
    | zero =>
      simp only [List.getElem?_cons_zero, Option.some.injEq] at ha
      subst ha
      exact h.1
    | succ j =>
      have := ih h.2 j a ha
      rwa [show i + 1 + j = i + (j + 1) by omega] at this

theorem origin_var {b : Origin} (hd : (b.env.map Prod.fst).Nodup) (waits : List WRes) (x : Str) :
    varIn (b.sh waits).ctx x 0 = (b.vars x).map fun v => { value := v } := by
  refine (init_var b.root b.ppid b.pid b.cwd b.env hd x).trans ?_
  unfold Origin.vars
  cases b.env.lookup x <;> rfl

section
variable {w : World} {u : FnWorld} {b : Origin} {waits : List WRes} {name : Str} {ps : List Str} {s1 : Sh}

theorem begun_var0 (h : Begun (b.sh waits) s1 name ps) (x : Str) :
    varIn s1.ctx x 1 = if x = cs!"0" then some { value := name } else none := by
  unfold varIn
  rw [h.own]
  show AMap.get (AMap.insert [] _ _) _ = _
  rw [AMap.get_insert]
  split <;> rfl

theorem begun_var1 (h : Begun (b.sh waits) s1 name ps) (hd : (b.env.map Prod.fst).Nodup) (x : Str) :
    (∃ i a, ps[i]? = some a ∧ x = natStr (i + 1) ∧ varIn s1.ctx x 0 = some { value := a }) ∨
      ((∀ i, i < ps.length → x ≠ natStr (i + 1)) ∧ varIn s1.ctx x 0 = (b.vars x).map fun v => { value := v }) := by
  by_cases e : ∃ i, i < ps.length ∧ x = natStr (i + 1)
  · obtain ⟨i, hi, rfl⟩ := e
    exact .inl ⟨i, ps[i], by simp [hi], rfl, h.params i _ (by simp [hi])⟩
  · have hx : ∀ i, i < ps.length → x ≠ natStr (i + 1) := fun i hi h => e ⟨i, hi, h⟩
    exact .inr ⟨hx, (h.others x hx).trans (origin_var hd waits x)⟩

theorem begun_scopes (h : Begun (b.sh waits) s1 name ps) (hd : (b.env.map Prod.fst).Nodup) :
    scopesIn s1.ctx s1.ctx.stack = (b.ref name ps).scopes := by
  obtain ⟨sc, e, h1, h2⟩ := bindIn_one ps 1 b.vars
  rw [h.stack]
  show [_, _] = _ :: bindIn 1 ps [b.vars]
  rw [e]
  congr 1
  · funext x
    show (varIn s1.ctx x 1).map Var.value = _
    rw [begun_var0 h]
    split <;> rfl
  · congr 1
    funext x
    show (varIn s1.ctx x 0).map Var.value = _
    rcases begun_var1 h hd x with ⟨i, a, ha, rfl, hv⟩ | ⟨hx, hv⟩
    · rw [hv, Nat.add_comm i 1, h1 i a ha]
      rfl
    · rw [hv, h2 x fun j hj => by rw [Nat.add_comm]; exact hx j hj]
      cases b.vars x <;> rfl

theorem begun_writable (h : Begun (b.sh waits) s1 name ps) (hd : (b.env.map Prod.fst).Nodup) (x : Str) :
    Writable s1.ctx x := by
  intro i hi v hv
  rw [h.stack] at hi
  simp only [List.mem_cons, List.not_mem_nil, or_false] at hi
  rcases hi with rfl | rfl
  · rw [begun_var0 h] at hv
    split at hv
    · cases hv; rfl
    · cases hv
  · rcases begun_var1 h hd x with ⟨i, a, -, -, e⟩ | ⟨-, e⟩
    · rw [e] at hv; cases hv; rfl
    · rw [e] at hv
      obtain ⟨a, -, rfl⟩ := Option.map_eq_some_iff.1 hv
      rfl

theorem begun_path (h : Begun (b.sh waits) s1 name ps) (ws : List WRes) : pathOf s1 = pathOf (b.sh ws) := by
  unfold pathOf
  rw [h.stack]
  have := h.others (cs!"PATH") fun i _ e => natStr_ne_path _ e.symm
  exact congrArg (Option.map Var.value) this

theorem begun_function (h : Begun (b.sh waits) s1 name ps) (f : Str) (hf : Unqualified f) : s1.ctx.getFunction f = none := by
  rw [CtxMgr.getFunction_unqualified _ hf, List.findSome?_eq_none_iff]
  intro i hi
  rw [h.stack] at hi
  simp only [List.mem_cons, List.not_mem_nil, or_false] at hi
  unfold funcIn
  rcases hi with rfl | rfl
  · rw [h.own]; rfl
  · rw [h.funcs]; rfl

theorem Spec.FnChainsOk.rebase {w' : World} (h1 : w'.isFile = w.isFile) (h2 : w'.execOk = w.execOk)
    (h3 : w'.openOk = w.openOk) {s s' : Sh}
    (ha : s'.aliases = s.aliases) (hp : pathOf s' = pathOf s) (hw : ∀ x, Writable s.ctx x → Writable s'.ctx x)
    {cs : List MiniChain} (h : FnChainsOk w u s cs) : FnChainsOk w' u s' cs := by
  intro c hc t ht
  have := h c hc t ht
  cases t with
  | assign x q v =>
    obtain ⟨a1, a2, a3, a4, a5, a6, a7, a8⟩ := this
    exact ⟨a1, a2, a3, a4, a5, a6, a7, hw x a8⟩
  | cd d => exact this
  | «export» x q v => exact this
  | unset x g => exact this
  | exit c => exact this
  | source d p as => exact this
  | eval a as => exact this
  | «return» c => exact this
  | pwd => exact this
  | other b => exact ⟨(congrArg (fun m => AMap.get m b.name) ha).trans this.1, this.2⟩
  | run c cs =>
    intro e he
    obtain ⟨a1, a2, a3, a4, a5, a6, a7⟩ := this e he
    refine ⟨a1, a2, by rw [ha]; exact a3, a4, a5, a6, fun p hpp tr => ?_⟩
    obtain ⟨⟨pa, b1, b2⟩, b3, b4⟩ := a7 p hpp tr
    exact ⟨⟨pa, hp.trans b1, by rw [h1]; exact b2⟩, by rw [h2]; exact b3, b4⟩
  | full c cs =>
    intro e he
    obtain ⟨⟨a1, a2, a3, a4, a5, a6, a7⟩, c1, c2, c3⟩ := this e he
    refine ⟨⟨a1, a2, by rw [ha]; exact a3, a4, a5, a6, fun p hpp tr => ?_⟩, c1, by rw [h3]; exact c2, c3⟩
    obtain ⟨⟨pa, b1, b2⟩, b3, b4⟩ := a7 p hpp tr
    exact ⟨⟨pa, hp.trans b1, by rw [h1]; exact b2⟩, by rw [h2]; exact b3, b4⟩

theorem Spec.FileIs.rebase {s s' : Sh}
    (ha : s'.aliases = s.aliases) (hp : pathOf s' = pathOf s) (hw : ∀ x, Writable s.ctx x → Writable s'.ctx x)
    {p : Str} {r : Option (List MiniChain)} (h : FileIs w u s p r) : FileIs w u s' p r := by
  cases r with
  | none => exact h
  | some b => exact ⟨FnChainsOk.rebase rfl rfl rfl ha hp hw h.1, h.2⟩

theorem Spec.TextIs.rebase {s s' : Sh}
    (ha : s'.aliases = s.aliases) (hp : pathOf s' = pathOf s) (hw : ∀ x, Writable s.ctx x → Writable s'.ctx x)
    {t : Str} {r : Option (List MiniChain)} (h : TextIs w u s t r) : TextIs w u s' t r := by
  cases r with
  | none => exact h
  | some b => exact ⟨FnChainsOk.rebase rfl rfl rfl ha hp hw h.1, h.2⟩

theorem Spec.FnLineOk.rebase {w' : World} (h1 : w'.isFile = w.isFile) (h2 : w'.execOk = w.execOk)
    (h3 : w'.openOk = w.openOk) {s s' : Sh}
    (ha : s'.aliases = s.aliases) (hp : pathOf s' = pathOf s) (hw : ∀ x, Writable s.ctx x → Writable s'.ctx x)
    {l : FnLine} (h : FnLineOk w u s l) : FnLineOk w' u s' l := by
  intro i hi
  have := h i hi
  cases i with
  | chain c => exact FnChainsOk.rebase h1 h2 h3 ha hp hw this
  | define f c cs => exact ⟨FnChainsOk.rebase h1 h2 h3 ha hp hw this.1, this.2⟩

theorem quiet_counts {l : List Event} (h : ∀ e ∈ l, Quiet e) : forks l = 0 ∧ execs l = [] := by
  induction l with
  | nil => exact ⟨rfl, rfl⟩
  | cons e l ih =>
    obtain ⟨h1, h2⟩ := ih fun e he => h e (List.mem_cons_of_mem _ he)
    have := h e List.mem_cons_self
    cases e <;> first | exact this.elim | exact ⟨h1, h2⟩

/-- Where the lines begin, the shell is in the state of the reference. -/
theorem begun_sim {lines : List FnLine} (ok : OriginOk w u b lines) (h : Begun (b.sh waits) s1 name ps)
    (ha : Announced (b.sh waits) s1) (hargs : AllPassable 0 (name :: ps)) :
    FnSetting w u s1 ∧ FnSim w u (waits, none) s1 (b.ref name ps) s1 ∧ (∀ l ∈ b.starting ++ lines, FnLineOk w u s1 l) ∧
      execs s1.trace = [] := by
  obtain ⟨tr, ht, e⟩ := ha.trace
  replace e : s1.trace = tr := by rw [e]; exact List.append_nil tr
  replace ht := quiet_counts ht
  rw [← e] at ht
  have hr := ha.rest
  have hwr := begun_writable h ok.env
  refine ⟨{
    res := ok.res
    pids := ok.pids
    inj := ok.inj
    dirs := ok.dirs
    fds := by rw [hr]; rfl
    held := by rw [hr]; rfl
    own := by rw [hr]; rfl
    forked := by rw [hr]; rfl
    noAlias := by rw [hr]; exact ⟨rfl, rfl, rfl, rfl, rfl, rfl, rfl, rfl, rfl, rfl⟩
    msgs := ok.msgs
    texts := fun p r hf => TextIs.rebase (s' := s1) (by rw [hr]; rfl) (begun_path h []) (fun x _ => hwr x) (ok.texts p r hf)
    files := fun p r hf => FileIs.rebase (s' := s1) (by rw [hr]; rfl) (begun_path h []) (fun x _ => hwr x) (ok.files p r hf)
    absent := fun x hx => by
      obtain ⟨path, p1, p2⟩ := ok.absent x hx
      exact ⟨path, (begun_path h []).trans p1, p2⟩
    params := fun i => hwr _ }, {
    own := nofun
    same := rfl
    scopes := begun_scopes (s1 := s1) h ok.env
    clean := by
      intro sc hsc x v hx hv
      rw [← begun_scopes (s1 := s1) h ok.env, h.stack] at hsc
      simp only [scopesIn, List.map_cons, List.map_nil, List.mem_cons, List.not_mem_nil, or_false] at hsc
      rcases hsc with rfl | rfl <;> simp only at hv
      · rw [begun_var0 h] at hv
        split at hv
        · cases hv; exact hargs.1.2.2.1
        · cases hv
      · rcases begun_var1 h ok.env x with ⟨i, a, hi, rfl, e⟩ | ⟨-, e⟩
        · rw [e] at hv
          cases hv
          exact (allPassable_get hargs.2 i a hi).2.2.1
        · rw [e] at hv
          refine ok.values x v hx ?_
          cases hb : b.vars x with
          | none => rw [hb] at hv; cases hv
          | some z => rw [hb] at hv; exact hv
    defs := fun f hf => begun_function h f hf
    bodies := fun f c hc => nomatch hc
    cwd := by rw [hr]; rfl
    status := by rw [hr]; rfl
    started := ht.1
    table := by rw [hr]; rfl
    path := rfl
    good := h.good
    writable := fun _ h => h
    ps1 := by
      have hu : Unqualified (cs!"PS1") := unqualified_iff.2 rfl
      unfold valueOf
      rw [CtxMgr.getVar_unqualified _ hu]
      show (s1.ctx.stack.findSome? (varIn s1.ctx (cs!"PS1"))).map Var.value ≠ none
      rw [h.stack, List.findSome?_cons, begun_var0 h, if_neg (by decide)]
      have e : varIn s1.ctx (cs!"PS1") 0 = varIn (b.sh waits).ctx (cs!"PS1") 0 := h.others _ fun i _ e => by
        have := natStr_digit (n := i + 1) (c := 'P') (by rw [← e]; decide)
        revert this
        decide
      rw [origin_var ok.env] at e
      have hv : b.vars (cs!"PS1") ≠ none := by
        unfold Origin.vars
        cases b.env.lookup (cs!"PS1") with
        | some v => simp
        | none => simp +decide [defaults, List.lookup_cons]
      simp only [List.findSome?_cons, e]
      cases hb : b.vars (cs!"PS1") with
      | none => exact absurd hb hv
      | some v => simp
    ran := ⟨[], .nil, by simp⟩
    waits := by
      show [] ++ s1.waits = waits
      rw [hr]
      rfl
    env := fun _ => rfl }, fun l hm => ?_, ht.2⟩
  exact FnLineOk.rebase rfl rfl rfl (s' := s1) (by rw [hr]; rfl) (begun_path h []) (fun x _ => hwr x) (ok.lines l hm)

end

/-! ## Lines of a script -/

theorem fn_script {w : World} {u : FnWorld} {all : List WRes} {s0 : Sh} (S : FnSetting w u s0) (n : Nat)
    {ts : List Str} {lines : List FnLine} (hs : ScriptOf ts lines) :
    ∀ {σ τ : FnState} {s : Sh}, FnSim w u (all, none) s0 σ s → σ.ended = none → (∀ l ∈ lines, FnLineOk w u s0 l) →
      u.session n σ lines = some τ → Begins all τ.flat →
      ∃ s', FnSim w u (all, none) s0 τ s' ∧ (τ.ended = none → evalLines w (n + 1) ts s = (.ok (), s')) ∧
        (∀ c, τ.ended = some c → ∃ pre e post s1, ts = pre ++ e :: post ∧ evalLines w (n + 1) pre s = (.ok (), s1) ∧
          evalText w (n + 1) e s1 = (.exit c, s') ∧ SavedLast w s') ∧
        printed s'.trace = printed s.trace ++ (u.scriptTalk n σ lines).map fun t => ((s0.fds.get 1).map FdE.chan, t) := by
  induction hs with
  | nil =>
    intro σ τ s h hgo _ hr _
    cases hr
    exact ⟨s, h, fun _ => rfl, fun c e => (by rw [hgo] at e; cases e), by simp [FnWorld.scriptTalk]⟩
  | @skip t ts ls hp _ ih =>
    intro σ τ s h hgo hok hr hb
    obtain ⟨s', a0, a1, a2, a3⟩ := ih h hgo hok hr hb
    have hone : evalAny w (n + 1) t s = (.ok (), s) := by
      unfold evalAny evalText
      rw [hp]
      rfl
    refine ⟨s', a0, fun e => by rw [evalLines, run_bind_ok hone]; exact a1 e, fun c e => ?_, a3⟩
    obtain ⟨pre, l, post, s1, rfl, b1, b2⟩ := a2 c e
    exact ⟨t :: pre, l, post, s1, rfl, by rw [evalLines, run_bind_ok hone]; exact b1, b2⟩
  | @line t ts l ls hp _ ih =>
    intro σ τ s h hgo hok hr hb
    rw [FnWorld.session, if_neg (by rw [hgo]; simp)] at hr
    obtain ⟨ρ, hr1, hr2⟩ := Option.bind_eq_some_iff.1 hr
    obtain ⟨cc, o, s2, b0, b1, b2, b3, b4⟩ := fn_line S n h (hok l List.mem_cons_self) hr1
      (hb.before (fn_later_session ls hr2))
    have htalk : u.scriptTalk n σ (l :: ls) = ρ.said ++ u.scriptTalk n ρ ls := by
      simp [FnWorld.scriptTalk, hgo, hr1]
    rcases hend : ρ.ended with _ | c
    case some =>
      rw [fn_session_ended (by rw [hend]; rfl)] at hr2
      cases hr2
      obtain ⟨rfl, b2'⟩ := b2.exit hend
      refine ⟨s2, b3, fun e => (by rw [hend] at e; cases e), fun c' e => ?_, ?_⟩
      rotate_left
      · have : u.scriptTalk n τ ls = [] := by
          cases ls with
          | nil => rfl
          | cons l ls => rw [FnWorld.scriptTalk, if_pos (by rw [hend]; rfl)]
        rw [htalk, this, List.append_nil, b4]
      rw [hend] at e
      cases e
      refine ⟨[], t, ts, s, rfl, rfl, ?_, b2'⟩
      unfold evalText
      rw [hp, b0]
      exact b1
    obtain ⟨s', a0, a1, a2, a3⟩ := ih b3 hend (fun l' h => hok l' (List.mem_cons_of_mem _ h)) hr2 hb
    have hone : evalAny w (n + 1) t s = (.ok (), s2) := by
      unfold evalAny evalText
      rw [hp, b0]
      simp only
      rcases b2.continues hend with ⟨r, rfl⟩ | ⟨e, rfl⟩
      · rw [run_bind_ok (run_tryE_ok b1)]; rfl
      · rw [run_bind_ok (run_tryE_err b1)]; rfl
    refine ⟨s', a0, fun e => by rw [evalLines, run_bind_ok hone]; exact a1 e, fun c e => ?_,
      by rw [a3, b4, htalk, List.map_append, List.append_assoc]⟩
    obtain ⟨pre, l, post, s1, rfl, b1, b2⟩ := a2 c e
    exact ⟨t :: pre, l, post, s1, rfl, by rw [evalLines, run_bind_ok hone]; exact b1, b2⟩

theorem FnSim.quiet {w : World} {u : FnWorld} {all : List WRes} {s0 : Sh} {σ : FnState} {s : Sh}
    (h : FnSim w u (all, none) s0 σ s) {tr : List Event} (h1 : forks tr = forks s.trace) (h2 : execs tr = execs s.trace) :
    FnSim w u (all, none) s0 σ { s with trace := tr } := by
  obtain ⟨k1, k2, k3, k4, k5, k6, k7, k8, k9, k10, k11, k12, k13, k14, k15, k16, -⟩ := h
  exact ⟨k1.trans rfl, k2, k3, k4, k5, k6, k7, h1.trans k8, k9, k10, k11, k12, k13, by rw [h2]; exact k14, k15, k16, nofun⟩

/-- The handlers are installed. -/
theorem FnSim.handled {w : World} {u : FnWorld} {all : List WRes} {s0 : Sh} {σ : FnState} {s : Sh}
    (h : FnSim w u (all, none) s0 σ s) {d : Nat → Disp} (hd : ∀ g, d g = .ign ↔ s0.disp g = .ign) (m : Nat → Option SigMode)
    (hl : Str) :
    FnSim w u (all, none) { s0 with disp := d, sigMode := m, historyLoc := hl } σ
      { s with disp := d, sigMode := m, historyLoc := hl } := by
  obtain ⟨k1, k2, k3, k4, k5, k6, k7, k8, k9, k10, k11, k12, k13, ⟨g, g1, g2⟩, k15, k16, -⟩ := h
  refine ⟨?_, k2, k3, k4, fun f b hb => FnChainsOk.rebase (s := s0)
    (s' := { s0 with disp := d, sigMode := m, historyLoc := hl }) rfl rfl rfl rfl rfl (fun _ h => h) (k5 f b hb), k6, k7, k8, k9, k10, k11,
    k12, k13, ⟨g, FnRan.rebase (s := s0) (s' := { s0 with disp := d, sigMode := m, historyLoc := hl }) rfl hd g1, g2⟩, k15, k16, nofun⟩
  unfold MiniSame at k1 ⊢
  rw [k1]

/-- A start-up file. -/
theorem start_file {w : World} {u : FnWorld} {all : List WRes} {s0 : Sh} (S : FnSetting w u s0) (n : Nat) {p : Str}
    {o : Option FnLine} (hf : StartFile w p o) {σ τ : FnState} {s : Sh} (h : FnSim w u (all, none) s0 σ s) (hgo : σ.ended = none)
    (hok : ∀ l ∈ o.toList, FnLineOk w u s0 l) (hr : u.startUp n o.toList σ = some τ) (hb : Begins all τ.flat) :
    ∃ s', FnSim w u (all, none) s0 τ s' ∧ (τ.ended = none → readStartup w (n + 1) p s = (.ok (), s')) ∧
      (∀ c, τ.ended = some c → readStartup w (n + 1) p s = (.exit c, s') ∧ SavedLast w s') ∧
      (SilentFile w p o → printed s'.trace =
        printed s.trace ++ (u.startTalk n o.toList σ).map fun t => ((s0.fds.get 1).map FdE.chan, t)) := by
  rw [readStartup_run]
  have h' : FnSim w u (all, none) s0 σ (did s (.readFile p)) := h.quiet rfl rfl
  cases o with
  | none =>
    cases hr
    have := hf s.trace
    have hsay : printed (did s (.readFile p)).trace = printed s.trace ++
        (u.startTalk n (none : Option FnLine).toList σ).map fun t => ((s0.fds.get 1).map FdE.chan, t) := by
      simp [did, FnWorld.startTalk, printed]
    have hno : ∀ c, σ.ended = some c → ∀ {P : Prop}, P := fun c e => by rw [hgo] at e; cases e
    cases hr : w.readFile s.trace p with
    | missing => exact ⟨_, h', fun _ => rfl, fun c e => hno c e, fun _ => hsay⟩
    | notUtf8 =>
      refine ⟨_, h'.printed _ _, fun _ => rfl, fun c e => hno c e, fun hq => ?_⟩
      rcases hq rfl s.trace with e | ⟨t, e, -⟩ <;> rw [hr] at e <;> cases e
    | text t =>
      rw [hr] at this
      unfold startupBody
      rcases this with e | e <;> simp only [e]
      · refine ⟨_, h'.printed _ _, fun _ => rfl, fun c e => hno c e, fun hq => ?_⟩
        rcases hq rfl s.trace with e' | ⟨t', e', e''⟩ <;> rw [hr] at e' <;> cases e'
        rw [e] at e''
        cases e''
      · exact ⟨_, h', fun _ => rfl, fun c e => hno c e, fun _ => hsay⟩
  | some l =>
    obtain ⟨t, ht, hp⟩ := hf
    obtain ⟨ρ, hr1, hr2⟩ := Option.bind_eq_some_iff.1 hr
    have key : ρ = τ ∧ ∀ m, ρ.stop ≠ some (.failed m) := by
      split at hr2
      · next e => cases hr2; exact ⟨rfl, by rw [e]; simp⟩
      · next e => cases hr2; exact ⟨rfl, by rw [e]; simp⟩
      · cases hr2
    obtain ⟨rfl, hs⟩ := key
    obtain ⟨cc, o, s2, b0, b1, b2, b3, b4⟩ := fn_line S n h' (hok l (by simp)) hr1 hb
    refine ⟨s2, b3, fun e => ?_, fun c e => ?_, fun _ => ?_⟩
    rotate_left 2
    · rw [b4]
      show _ = _ ++ (u.startTalk n [l] σ).map _
      simp [did, FnWorld.startTalk, hr1, Spec.printed]
    · have : ∃ r, o = .ok r := by
        unfold FnState.ended at e
        unfold FnEnds at b2
        split at b2
        · exact b2
        · next e' => exact absurd e' (hs _)
        · next e' => rw [e'] at e; cases e
      obtain ⟨r, rfl⟩ := this
      rw [ht]
      unfold startupBody
      simp only [hp, b0]
      rw [run_bind_ok (run_tryE_ok b1)]
      rfl
    · obtain ⟨rfl, b2'⟩ := b2.exit e
      refine ⟨?_, b2'⟩
      rw [ht]
      unfold startupBody
      simp only [hp, b0]
      refine run_bind_exit ?_ _
      rw [run_tryE, b1]

theorem later_startUp {u : FnWorld} {d : Nat} (ls : List FnLine) :
    ∀ {σ τ : FnState}, u.startUp d ls σ = some τ → MiniLater σ.flat τ.flat := by
  induction ls with
  | nil => intro σ τ h; cases h; exact MiniLater.refl _
  | cons l ls ih =>
    intro σ τ h
    obtain ⟨ρ, h1, h2⟩ := Option.bind_eq_some_iff.1 h
    split at h2
    · exact (fn_later_line h1).trans (ih h2)
    · cases h2
      exact fn_later_line h1
    · cases h2

/-- One start-up file after the other. -/
theorem startUp_two (u : FnWorld) (d : Nat) (o : Option FnLine) (ks : List FnLine) (σ : FnState) (hgo : σ.ended = none) :
    u.startUp d (o.toList ++ ks) σ =
      (u.startUp d o.toList σ).bind fun ρ => if ρ.ended.isSome then some ρ else u.startUp d ks ρ := by
  cases o with
  | none => simp [FnWorld.startUp, hgo]
  | some l =>
    show u.startUp d (l :: ks) σ = (u.startUp d [l] σ).bind _
    rw [FnWorld.startUp, FnWorld.startUp]
    cases u.line d σ l with
    | none => rfl
    | some ρ =>
      simp only [Option.bind_some]
      split
      · next e => simp [FnWorld.startUp, FnState.ended, e]
      · next c e => simp [FnState.ended, e]
      · rfl

theorem startTalk_two (u : FnWorld) (d : Nat) (o : Option FnLine) (ks : List FnLine) {σ ρ : FnState} (hgo : σ.ended = none)
    (hr : u.startUp d o.toList σ = some ρ) :
    u.startTalk d (o.toList ++ ks) σ = u.startTalk d o.toList σ ++ if ρ.ended.isSome then [] else u.startTalk d ks ρ := by
  cases o with
  | none => cases hr; simp [FnWorld.startTalk, hgo]
  | some l =>
    obtain ⟨π, h1, h2⟩ := Option.bind_eq_some_iff.1 (show (u.line d σ l).bind _ = some ρ from hr)
    show u.startTalk d (l :: ks) σ = u.startTalk d [l] σ ++ _
    split at h2
    · next e => cases h2; simp [FnWorld.startTalk, h1, e, FnState.ended]
    · next e => cases h2; simp [FnWorld.startTalk, h1, e, FnState.ended]
    · cases h2

/-- The start-up files. -/
theorem start_files {w : World} {u : FnWorld} {b : Origin} {lines : List FnLine} (ok : OriginOk w u b lines)
    {all : List WRes} {s0 : Sh} (S : FnSetting w u s0) (hok : ∀ l ∈ b.starting ++ lines, FnLineOk w u s0 l) (n : Nat)
    {name : Str} {ps : List Str} {τ : FnState} {s : Sh} (h : FnSim w u (all, none) s0 (b.ref name ps) s)
    (hr : u.whole n b name ps lines = some τ) (hb : Begins all τ.flat) :
    ∃ σ s', u.startUp n b.starting (b.ref name ps) = some σ ∧ FnSim w u (all, none) s0 σ s' ∧ u.session n σ lines = some τ ∧
      (∀ l ∈ lines, FnLineOk w u s0 l) ∧
      (SilentStart w b → printed s'.trace = printed s.trace ++
        (u.startTalk n b.starting (b.ref name ps)).map fun t => ((s0.fds.get 1).map FdE.chan, t)) ∧
      ((σ.ended = none ∧ startFiles w (n + 1) s = (.ok (), s')) ∨
        ∃ c, σ.ended = some c ∧ τ = σ ∧ startFiles w (n + 1) s = (.exit c, s') ∧ SavedLast w s') := by
  obtain ⟨σ, hr1, hr2⟩ := Option.bind_eq_some_iff.1 hr
  have hb1 : Begins all σ.flat := hb.before (fn_later_session _ hr2)
  have hlines : ∀ l ∈ lines, FnLineOk w u s0 l := fun l hl => hok l (List.mem_append_right _ hl)
  have hr3 := hr1
  unfold Origin.starting at hr1 hok
  rw [startUp_two u n _ _ _ rfl] at hr1
  obtain ⟨ρ, hr0, hr1⟩ := Option.bind_eq_some_iff.1 hr1
  have hb0 : Begins all ρ.flat := by
    split at hr1
    · cases hr1; exact hb1
    · exact hb1.before (later_startUp _ hr1)
  obtain ⟨s1, a0, a1, a2, a3⟩ := start_file S n ok.rc h rfl (fun l hl => hok l (by simp [hl])) hr0 hb0
  have same : ∀ {π : FnState} {c : Int}, π.ended = some c → u.session n π lines = some τ → τ = π := by
    intro π c e hπ
    rw [fn_session_ended (by rw [e]; rfl)] at hπ
    cases hπ
    rfl
  rcases hend : ρ.ended with _ | c
  · rw [if_neg (by rw [hend]; simp)] at hr1
    obtain ⟨s2, c0, c1, c2, c3⟩ := start_file S n ok.profile a0 hend (fun l hl => hok l (by simp [hl])) hr1 hb1
    refine ⟨σ, s2, hr3, c0, hr2, hlines, fun hq => ?_, ?_⟩
    · unfold Origin.starting
      rw [c3 hq.2, a3 hq.1, startTalk_two u n _ _ rfl hr0, if_neg (by rw [hend]; simp), List.map_append, List.append_assoc]
    unfold startFiles
    rw [run_bind_ok (a1 hend)]
    rcases hend' : σ.ended with _ | c
    · exact .inl ⟨rfl, c1 hend'⟩
    · exact .inr ⟨c, rfl, same hend' hr2, (c2 c hend').1, (c2 c hend').2⟩
  · rw [if_pos (by rw [hend]; rfl)] at hr1
    cases hr1
    have hsay : SilentStart w b → printed s1.trace = printed s.trace ++
        (u.startTalk n b.starting (b.ref name ps)).map fun t => ((s0.fds.get 1).map FdE.chan, t) := fun hq => by
      unfold Origin.starting
      rw [a3 hq.1, startTalk_two u n _ _ rfl hr0, if_pos (by rw [hend]; rfl), List.append_nil]
    exact ⟨_, s1, hr3, a0, hr2, hlines, hsay, .inr ⟨c, hend, same hend hr2, run_bind_exit (a2 c hend).1 _, (a2 c hend).2⟩⟩

theorem script_parses {ts : List Str} {lines : List FnLine} (hs : ScriptOf ts lines)
    (h : ∀ l ∈ lines, parse l.text ≠ none) : ∀ t ∈ ts, parse t ≠ none := by
  induction hs with
  | nil => simp
  | skip hp _ ih =>
    intro t ht
    rcases List.mem_cons.1 ht with rfl | ht
    · rw [hp]; simp
    · exact ih h t ht
  | line hp _ ih =>
    intro t ht
    rcases List.mem_cons.1 ht with rfl | ht
    · rw [hp]; exact h _ List.mem_cons_self
    · exact ih (fun l hl => h l (List.mem_cons_of_mem _ hl)) t ht

theorem fn_parses {w : World} {u : FnWorld} {s : Sh} {l : FnLine} (h : FnLineOk w u s l) : parse l.text ≠ none := by
  rw [show parse l.text = _ from parse_program (fn_line_program h)]
  simp

theorem FnSim.followed {w : World} {u : FnWorld} {b : Origin} {all : List WRes} {s0 : Sh} {τ : FnState} {s : Sh}
    (h : FnSim w u (all, none) s0 τ s) (he : s0.env = b.env) (hd : ∀ g, s0.disp g = .ign ↔ (b.sh []).disp g = .ign) (hx : execs s0.trace = []) :
    Followed u b τ s where
  values x hx := by rw [seen_scopes s hx, h.scopes]
  functions := h.defs
  cwd := h.cwd
  status := h.status
  ran := by
    obtain ⟨g, g1, g2⟩ := h.ran
    exact ⟨g, FnRan.rebase he.symm (fun g => (hd g).symm) g1, by rw [g2, hx]; rfl⟩
  forks := h.started
  jobs := h.table
  env x := by rw [h.env, he]

theorem parseArgs_told (w : World) {argv0 : Str} {rest : List Str} (hne : argv0 ≠ []) (hopt : ¬ (IsOption argv0 ∧ 'c' ∈ argv0))
    {s s' : Sh} {r : Option Str} (h : parseArgs w (argv0 :: rest) s = (.ok r, s')) :
    printed s'.trace = printed s.trace ++ (argTalk w argv0 rest).map fun t => ((s.fds.get 1).map FdE.chan, t) := by
  have many : ∀ (f : Str → Str) (l : List Str), printed (l.map fun a => outLine s (f a)).reverse =
      l.map fun a => ((s.fds.get 1).map FdE.chan, f a ++ ['\n']) := by
    intro f l
    unfold printed outLine
    rw [List.reverse_reverse, List.filterMap_map]
    exact List.filterMap_eq_map' (f := fun a => ((s.fds.get 1).map FdE.chan, f a ++ ['\n'])) ▸ rfl
  cases rest with
  | nil => cases h; simp [argTalk]
  | cons a as =>
    unfold parseArgs at h
    rw [if_neg (by simp), run_bind] at h
    obtain ⟨st, e, a1, a2, a3, a4, a5⟩ := argLoop_self hne hopt (a :: as) s
    rw [e] at h
    cases hl : argLoop (a :: as) st (saidArg argv0 s) with
    | mk o s1 =>
      rw [hl] at h
      cases o with
      | ok st' =>
        obtain ⟨b1, b2, b3, b4⟩ := argLoop_told a1 a2 a3 (by rw [a5]; simp) hl
        have hself : (saidArg argv0 s).trace = outLine s (cs!"arg: " ++ argv0) :: s.trace := rfl
        have hout' : ∀ t, outLine (saidArg argv0 s) t = outLine s t := fun t => rfl
        have hs1 : printed s1.trace = printed s.trace ++
            ((argv0 :: readArgs (a :: as)).map fun a => ((s.fds.get 1).map FdE.chan, cs!"arg: " ++ a ++ ['\n'])) := by
          simp only [hout'] at b1
          rw [b1, hself, printed_append, many (fun a => cs!"arg: " ++ a)]
          simp [printed, outLine]
        cases hp : programWords (a :: as) with
        | none =>
          simp only [b4 hp, Bool.false_eq_true, if_false] at h
          cases h
          rw [hs1]
          simp [argTalk, hp]
        | some ws =>
          obtain ⟨c1, k, c2, c3⟩ := b3 ws hp
          simp only [c1, if_true] at h
          have hw : (argv0 :: a :: as).drop (st'.pos + 1) = ws := by
            rw [c2, ← c3, a5, show 1 + k + 1 = (k + 1) + 1 by omega, List.drop_succ_cons]
          rw [hw] at h
          cases h
          show printed (.print ((s1.fds.get 1).map FdE.chan) (w.argsMsg ws ++ ['\n']) :: s1.trace) = _
          rw [printed_print, hs1, b2]
          simp [argTalk, hp, saidArg]
      | _ => cases h

theorem scriptTalk_ended {u : FnWorld} {n : Nat} {σ : FnState} (h : σ.ended.isSome = true) (ls : List FnLine) :
    u.scriptTalk n σ ls = [] := by
  cases ls with
  | nil => rfl
  | cons l ls => rw [FnWorld.scriptTalk, if_pos h]

theorem talk_ended {u : FnWorld} {n : Nat} {σ : FnState} (h : σ.ended.isSome = true) (ts : List Str) (ls : List FnLine) :
    u.talk n σ ts ls = [] := by
  cases ts with
  | nil => simp [FnWorld.talk]
  | cons t ts => unfold FnWorld.talk; rw [if_pos h]

/-- What is said at the start, then in the start-up files, then in the rest. -/
theorem wrote_all {w : World} {b : Origin} {waits : List WRes} {argv0 : Str} {rest : List Str} (hne : argv0 ≠ [])
    (hopt : ¬ (IsOption argv0 ∧ 'c' ∈ argv0)) {s1 : Sh} (ha : Announced (b.sh waits) s1) {c2 : CtxMgr}
    (h : ∃ r c, parseArgs w (argv0 :: rest) (b.sh waits) = (.ok r, { s1 with ctx := c })) {s2 s3 s4 : Sh} {x y : List Str}
    (h2 : printed s2.trace = printed { s1 with ctx := c2 }.trace ++ x.map fun t => ((s1.fds.get 1).map FdE.chan, t))
    (h3 : printed s3.trace = printed s2.trace)
    (h4 : printed s4.trace = printed s3.trace ++ y.map fun t => ((s1.fds.get 1).map FdE.chan, t)) :
    WroteAll s4 (argTalk w argv0 rest ++ (x ++ y)) := by
  obtain ⟨r, c, h⟩ := h
  have h1 : printed s1.trace = _ := parseArgs_told (s' := { s1 with ctx := c }) w hne hopt h
  have hfd : s1.fds = (b.sh waits).fds := by rw [ha.rest]
  unfold WroteAll
  rw [h4, h3, h2, h1, hfd]
  have e1 : printed (b.sh waits).trace = [] := rfl
  have e2 : ((b.sh waits).fds.get 1).map FdE.chan = some (.orig 1) := rfl
  rw [e1, e2]
  simp

theorem script_run {w : World} {u : FnWorld} {b : Origin} {lines : List FnLine} (ok : OriginOk w u b lines)
    {argv0 : Str} {rest : List Str} (hne : argv0 ≠ []) (hopt : ¬ (IsOption argv0 ∧ 'c' ∈ argv0)) {name : Str} {ps : List Str}
    (hi : invocation rest = .script name ps) (hname : name ≠ []) (hps : ∀ p ∈ ps, p ≠ [])
    (hargs : AllPassable 0 (name :: ps)) {n : Nat} {τ : FnState} (hr : u.whole n b name ps lines = some τ)
    {left : List WRes} (hl : .eintr ∉ left) {ts : List Str} (hs : ScriptOf ts lines) {t : Str} {post : List Str}
    (hf : ∀ tr, w.readFile tr name = .text t) (ht : LinesOf t (ts ++ post)) (k : Nat) (ins : List SessionIn) :
    ∃ s', Followed u b τ s' ∧ s'.waits = left ∧
      (SilentStart w b → WroteAll s' (argTalk w argv0 rest ++ u.wholeTalk n b name ps lines)) ∧
      (∀ c, τ.ended = some c →
        mainM w (n + 1) k (argv0 :: rest) ins (b.sh (τ.reported ++ left)) = (.exit c, s') ∧ SavedLast w s') ∧
      (post = [] → τ.ended = none →
        mainM w (n + 1) k (argv0 :: rest) ins (b.sh (τ.reported ++ left)) = (.hang, s')) := by
  have harg : ∀ i a, ps[i]? = some a → PlainArg (i + 1) a := fun i a h => by
    have := allPassable_get hargs.2 i a h
    rw [Nat.add_comm] at this
    exact passable_plain this
  obtain ⟨s1, a1, -, -, a2, hpa, a3⟩ := main_script w (n + 1) k b.root b.ppid b.pid b.cwd b.env (τ.reported ++ left) argv0 rest ins
    hne hopt name ps hi hname (passable_plain hargs.1) hps harg
  replace a3 : mainM w (n + 1) k (argv0 :: rest) ins (b.sh (τ.reported ++ left)) = _ := a3
  obtain ⟨S, start, hok0, hq⟩ := begun_sim ok a2 a1 hargs
  have done : ∀ {s' : Sh}, FnSim w u (τ.reported ++ left, none) s1 τ s' → Followed u b τ s' ∧ s'.waits = left := by
    intro s' h
    refine ⟨h.followed ?_ ?_ hq, List.append_cancel_left h.waits⟩
    · show s1.env = _
      rw [a1.rest]
      rfl
    · show ∀ g, s1.disp g = _ ↔ _
      rw [a1.rest]
      exact fun _ => .rfl
  obtain ⟨σ, s3, e0, e2, hr, hok, hsaid, ⟨hgo, e1⟩ | ⟨c, hx, rfl, e1, e3⟩⟩ := start_files ok S hok0 n start hr ⟨left, rfl, hl⟩
  · obtain ⟨s2, d1, d2, d3, d4⟩ := fn_script S n hs (s := { s3 with trace := .readFile name :: s3.trace }) (e2.quiet rfl rfl) hgo hok
      hr ⟨left, rfl, hl⟩
    have hp := script_parses hs fun l hl => fn_parses (hok l hl)
    rw [run_bind_ok e1] at a3
    have hw : SilentStart w b → WroteAll s2 (argTalk w argv0 rest ++ u.wholeTalk n b name ps lines) := fun hq => by
      unfold FnWorld.wholeTalk
      rw [e0]
      exact wrote_all hne hopt a1 (c2 := s1.ctx) hpa (hsaid hq) (by simp [printed]) d4
    refine ⟨s2, (done d1).1, (done d1).2, hw, fun c hc => ?_, fun hnil hc => ?_⟩
    · obtain ⟨pre, e, post', s4, rfl, f1, f2, f3⟩ := d3 c hc
      rw [List.append_assoc, List.cons_append] at ht
      exact ⟨a3.trans (C82_exit_partial w (n + 1) k s3 s4 s2 name t e pre _ _ (hf _) ht
        (fun l hl => hp l (List.mem_append_left _ hl)) f1 f2), f3⟩
    · rw [hnil, List.append_nil] at ht
      exact a3.trans ((C82_never w (n + 1) s3 s2 name t ts (hf _) ht hp (d2 hc)).1 k)
  · have hw : SilentStart w b → WroteAll s3 (argTalk w argv0 rest ++ u.wholeTalk n b name ps lines) := fun hq => by
      unfold FnWorld.wholeTalk
      rw [e0]
      exact wrote_all hne hopt a1 (c2 := s1.ctx) hpa (hsaid hq) rfl (by simp [scriptTalk_ended (u := u) (n := n) (σ := τ) (by rw [hx]; rfl)])
    refine ⟨s3, (done e2).1, (done e2).2, hw, fun c' hc => ?_, fun _ hc => ?_⟩
    · rw [hx] at hc
      cases hc
      exact ⟨a3.trans (run_bind_exit e1 _), e3⟩
    · rw [hx] at hc; cases hc

/-! ## C165 -/

theorem Spec.Followed.ended {u : FnWorld} {b : Origin} {τ : FnState} {s s' : Sh} (h : Followed u b τ s) {m : Bool}
    (hs : s' = { s with masked := m, trace := s'.trace }) (h1 : Spec.forks s'.trace = Spec.forks s.trace)
    (h2 : execs s'.trace = execs s.trace) : Followed u b τ s' := by
  obtain ⟨f1, f2, f3, f4, f5, f6, f7, f8⟩ := h
  refine ⟨fun x hx => ?_, fun f h => ?_, ?_, ?_, ?_, h1.trans f6, ?_, fun x => ?_⟩
  · rw [hs]; exact f1 x hx
  · rw [hs]; exact f2 f h
  · rw [hs]; exact f3
  · rw [hs]; exact f4
  · rw [h2]; exact f5
  · rw [hs]; exact f7
  · rw [hs]; exact f8 x

/-- C165, a script that comes to `exit`: started with the script as its argument, the shell runs the pipelines the
reference runs, as it should, and no others; then it ends with the status of the reference.  The lines after `exit` do not
matter.  If `exit` is in a start-up file, the script is not even begun.  The shell itself writes what it says of its
arguments, and what `pwd` says, if start-up files without a program are missing or blank; there are no prompts, and no messages for lines
that fail. -/
theorem C165_script (w : World) (u : FnWorld) (b : Origin) (lines : List FnLine) (ok : OriginOk w u b lines)
    (argv0 : Str) (rest : List Str) (hne : argv0 ≠ []) (hopt : ¬ (IsOption argv0 ∧ 'c' ∈ argv0)) (name : Str) (ps : List Str)
    (hi : invocation rest = .script name ps) (hname : name ≠ []) (hps : ∀ p ∈ ps, p ≠ [])
    (hargs : AllPassable 0 (name :: ps)) (n : Nat) (τ : FnState) (hr : u.whole n b name ps lines = some τ)
    (c : Int) (hc : τ.ended = some c)
    (left : List WRes) (hl : .eintr ∉ left) (t : Str) (ts post : List Str) (hf : ∀ tr, w.readFile tr name = .text t)
    (ht : LinesOf t (ts ++ post)) (hs : ScriptOf ts lines) (k : Nat) (ins : List SessionIn) :
    ∃ s', mainM w (n + 1) k (argv0 :: rest) ins (b.sh (τ.reported ++ left)) = (.exit c, s') ∧
      Followed u b τ s' ∧ s'.waits = left ∧ SavedLast w s' ∧
      (SilentStart w b → WroteAll s' (argTalk w argv0 rest ++ u.wholeTalk n b name ps lines)) := by
  obtain ⟨s', a1, a2, hw, a3, -⟩ := script_run ok hne hopt hi hname hps hargs hr hl hs (post := post) hf ht k ins
  exact ⟨s', (a3 c hc).1, a1, a2, (a3 c hc).2, hw⟩

/-- C165, a script that does not come to `exit`: it runs in the same way.  Afterwards the shell does not end (C82). -/
theorem C165_script_endless (w : World) (u : FnWorld) (b : Origin) (lines : List FnLine) (ok : OriginOk w u b lines)
    (argv0 : Str) (rest : List Str) (hne : argv0 ≠ []) (hopt : ¬ (IsOption argv0 ∧ 'c' ∈ argv0)) (name : Str) (ps : List Str)
    (hi : invocation rest = .script name ps) (hname : name ≠ []) (hps : ∀ p ∈ ps, p ≠ [])
    (hargs : AllPassable 0 (name :: ps)) (n : Nat) (τ : FnState) (hr : u.whole n b name ps lines = some τ)
    (hc : τ.ended = none)
    (left : List WRes) (hl : .eintr ∉ left) (t : Str) (ts : List Str) (hf : ∀ tr, w.readFile tr name = .text t)
    (ht : LinesOf t ts) (hs : ScriptOf ts lines) (k : Nat) (ins : List SessionIn) :
    ∃ s', mainM w (n + 1) k (argv0 :: rest) ins (b.sh (τ.reported ++ left)) = (.hang, s') ∧
      Followed u b τ s' ∧ s'.waits = left ∧
      (SilentStart w b → WroteAll s' (argTalk w argv0 rest ++ u.wholeTalk n b name ps lines)) := by
  obtain ⟨s', a1, a2, hw, -, a4⟩ := script_run ok hne hopt hi hname hps hargs hr hl hs (post := []) hf (by simpa using ht) k ins
  exact ⟨s', a4 rfl hc, a1, a2, hw⟩

/-- Without a script, `$0` is `rsh` and there are no parameters. -/
theorem origin_begun (w : World) {b : Origin} {waits : List WRes} {s0 : Sh} (a1 : Announced (b.sh waits) s0)
    (a2 : s0.ctx = (b.sh waits).ctx) (a3 : s0.scriptName = cs!"rsh") :
    ∃ c2, (do pushContextNew; setArg0 : M Unit) s0 = (.ok (), { s0 with ctx := c2 }) ∧
      Begun (b.sh waits) { s0 with ctx := c2 } (cs!"rsh") [] ∧ Announced (b.sh waits) { s0 with ctx := c2 } := by
  have hargs : AllPassable 0 [cs!"rsh"] := by decide
  obtain ⟨c2, hrun, d1, d2, d3, d4⟩ := arg0_set w s0 (passable_plain hargs.1) a3 (by rw [a2]; rfl) (by rw [a2]; rfl)
    (by rw [a2]; exact good_init ..)
  refine ⟨c2, hrun, {
    stack := d1
    own := d3
    params := by simp
    others := fun x _ => by
      unfold varIn
      show List.lookup x (c2.heap 0).vars = _
      rw [d2, a2]
    funcs := by
      show (c2.heap 0).funcs = _
      rw [d2, a2]
    good := d4 }, a1.trace, ?_⟩
  conv => lhs; rw [a1.rest]

/-- C165, a line given with `-c`: it runs in the same way; the shell ends, with the status of `exit` if the reference comes
to that, and otherwise with 0 whatever the status is (C98). -/
theorem C165_program (w : World) (u : FnWorld) (b : Origin) (l : FnLine) (ok : OriginOk w u b [l])
    (argv0 : Str) (rest : List Str) (hne : argv0 ≠ []) (hopt : ¬ (IsOption argv0 ∧ 'c' ∈ argv0)) (t : Str)
    (hi : invocation rest = .program t) (ht : parse t = parse l.text)
    (n : Nat) (τ : FnState) (hr : u.whole n b (cs!"rsh") [] [l] = some τ)
    (left : List WRes) (hl : .eintr ∉ left) (k : Nat) (ins : List SessionIn) :
    ∃ s', mainM w (n + 1) k (argv0 :: rest) ins (b.sh (τ.reported ++ left)) =
        ((match τ.ended with | some c => .exit c | none => .ok ()), s') ∧
      Followed u b τ s' ∧ s'.waits = left ∧
      (SilentStart w b → WroteAll s' (argTalk w argv0 rest ++ u.wholeTalk n b (cs!"rsh") [] [l])) := by
  have hp : parse t ≠ none := by rw [ht]; exact fn_parses (ok.lines l (by simp))
  obtain ⟨s0, a1, a2, a3, -, hpa, a4⟩ := C83_program_partial w (n + 1) k (b.sh (τ.reported ++ left)) argv0 rest ins hne hopt t hi hp
  have hargs : AllPassable 0 [cs!"rsh"] := by decide
  obtain ⟨c2, hrun, hb, ha⟩ := origin_begun w a1 a2 (by rw [a3]; rfl)
  obtain ⟨S, start, hok0, hq⟩ := begun_sim ok hb ha hargs
  have done : ∀ {s' : Sh}, FnSim w u (τ.reported ++ left, none) { s0 with ctx := c2 } τ s' → Followed u b τ s' ∧ s'.waits = left := by
    intro s' h
    refine ⟨h.followed ?_ ?_ hq, List.append_cancel_left h.waits⟩
    · show s0.env = _
      rw [a1.rest]
      rfl
    · show ∀ g, s0.disp g = _ ↔ _
      rw [a1.rest]
      exact fun _ => .rfl
  have hmain : mainM w (n + 1) k (argv0 :: rest) ins (b.sh (τ.reported ++ left)) =
      (startFiles w (n + 1) >>= fun _ => evalAny w (n + 1) t) { s0 with ctx := c2 } := by
    rw [a4]
    have : (do pushContextNew; setArg0; startFiles w (n + 1); evalAny w (n + 1) t : M Unit) =
        ((do pushContextNew; setArg0 : M Unit) >>= fun _ => startFiles w (n + 1) >>= fun _ => evalAny w (n + 1) t) := by
      simp only [bind_assoc]
    rw [this, run_bind_ok hrun]
  obtain ⟨σ, s3, f0, f2, hr, hok, hsaid, ⟨hgo, f1⟩ | ⟨c, hx, rfl, f1, -⟩⟩ := start_files ok S hok0 n start hr ⟨left, rfl, hl⟩
  · obtain ⟨s2, d1, d2, d3, d4⟩ := fn_script S n (.line ht .nil) f2 hgo hok hr ⟨left, rfl, hl⟩
    refine ⟨s2, ?_, (done d1).1, (done d1).2, fun hq => ?_⟩
    rotate_left
    · unfold FnWorld.wholeTalk
      rw [f0]
      exact wrote_all hne hopt a1 (c2 := c2) hpa (hsaid hq) rfl d4
    rw [hmain, run_bind_ok f1]
    rcases hend : τ.ended with _ | c
    · have e1 := d2 hend
      unfold evalLines at e1
      have e3 : evalLines w (n + 1) [] = pure () := rfl
      rw [e3] at e1
      rw [← bind_pure (evalAny w (n + 1) t)]
      exact e1
    · obtain ⟨pre, e, post, s1, h1, h2, h3, -⟩ := d3 c hend
      cases pre with
      | cons a pre => simp at h1
      | nil =>
        simp only [List.nil_append, List.cons.injEq] at h1
        obtain ⟨rfl, -⟩ := h1
        cases h2
        unfold evalAny
        refine run_bind_exit ?_ _
        rw [run_tryE, h3]
  · refine ⟨s3, ?_, (done f2).1, (done f2).2, fun hq => ?_⟩
    rotate_left
    · unfold FnWorld.wholeTalk
      rw [f0]
      exact wrote_all hne hopt a1 (c2 := c2) hpa (hsaid hq) rfl (by simp [scriptTalk_ended (u := u) (n := n) (σ := τ) (by rw [hx]; rfl)])
    rw [hmain, hx]
    exact run_bind_exit f1 _

/-! ## C166 -/

theorem interact_run (w : World) (n : Nat) (ins : List SessionIn) {b : Origin} {waits : List WRes} {s : Sh}
    (h1 : s.sigMode = (b.sh waits).sigMode) (h2 : s.disp = (b.sh waits).disp) (h3 : s.forked = false) :
    ∃ d m, interact w n ins s =
        interactiveLoop w n ins { s with disp := d, sigMode := m, historyLoc := cs!"history.txt" } ∧
      ∀ g, d g = .ign ↔ (b.sh waits).disp g = .ign := by
  have hm : ∀ g, s.sigMode g = none := fun g => by rw [h1]; rfl
  obtain ⟨m1, e1, k1⟩ := setSignal_fresh (s := s) SIGCHLD (by decide) (hm _)
  obtain ⟨m2, e2, k2⟩ := setSignal_fresh (s := { s with
      sigMode := m1, disp := fun n => if n = SIGCHLD then sigAction s.forked SIGCHLD else s.disp n }) SIGTSTP
    (by decide) ((k1 _ (by decide)).trans (hm _))
  obtain ⟨m3, e3, k3⟩ := setSignal_fresh (s := { s with
      sigMode := m2, disp := fun n => if n = SIGTSTP then sigAction s.forked SIGTSTP else
        if n = SIGCHLD then sigAction s.forked SIGCHLD else s.disp n }) SIGINT
    (by decide) ((k2 _ (by decide)).trans ((k1 _ (by decide)).trans (hm _)))
  refine ⟨fun n => if n = SIGINT then sigAction s.forked SIGINT else if n = SIGTSTP then sigAction s.forked SIGTSTP else
        if n = SIGCHLD then sigAction s.forked SIGCHLD else s.disp n, m3, ?_, fun g => ?_⟩
  · unfold interact
    rw [run_bind_ok e1, run_bind_ok e2, run_bind_ok e3, run_modS_bind]
  · rw [h2, h3]
    simp only
    by_cases g1 : g = SIGINT
    · subst g1; exact ⟨nofun, nofun⟩
    · by_cases g2 : g = SIGTSTP
      · subst g2; exact ⟨nofun, nofun⟩
      · by_cases g3 : g = SIGCHLD
        · subst g3; exact ⟨nofun, nofun⟩
        · simp [g1, g2, g3]

/-- The session. -/
theorem interactive_run {w : World} {u : FnWorld} {b : Origin} {lines : List FnLine} (ok : OriginOk w u b lines)
    {argv0 : Str} {rest : List Str} (hne : argv0 ≠ []) (hopt : ¬ (IsOption argv0 ∧ 'c' ∈ argv0))
    (hi : invocation rest = .interactive) {n : Nat} {τ : FnState}
    (hr : u.whole n b (cs!"rsh") [] lines = some τ) {left : List WRes} (hl : .eintr ∉ left) {ts : List Str}
    (hs : ScriptOf ts lines) (k : Nat) (ins : List SessionIn) :
    ∃ s2, Followed u b τ s2 ∧ s2.waits = left ∧ valueOf s2 (cs!"PS1") ≠ none ∧
      (SilentStart w b → WroteAll s2 (argTalk w argv0 rest ++ u.wholeSession n b ts lines)) ∧ s2.fds = (b.sh []).fds ∧
      (∀ σ, u.startUp n b.starting (b.ref (cs!"rsh") []) = some σ →
        s2.historyLoc = if σ.ended.isSome then [] else cs!"history.txt") ∧
      (τ.ended = none → s2.historyLoc = cs!"history.txt" ∧
        mainM w (n + 1) k (argv0 :: rest) (ts.map .line ++ ins) (b.sh (τ.reported ++ left)) =
          interactiveLoop w (n + 1) ins s2) ∧
      ∀ c, τ.ended = some c → SavedLast w s2 ∧
        mainM w (n + 1) k (argv0 :: rest) (ts.map .line ++ ins) (b.sh (τ.reported ++ left)) = (.exit c, s2) := by
  obtain ⟨s0, a1, a2, -, a3, hpa, a4⟩ := C83_interactive w (n + 1) k b.root b.ppid b.pid b.cwd b.env (τ.reported ++ left) argv0 rest
    (ts.map .line ++ ins) hne hopt hi
  obtain ⟨c2, hrun, hb, ha⟩ := origin_begun w a1 a2 a3
  obtain ⟨S, start, hok0, hq⟩ := begun_sim ok hb ha (by decide)
  have hmain : mainM w (n + 1) k (argv0 :: rest) (ts.map .line ++ ins) (b.sh (τ.reported ++ left)) =
      (startFiles w (n + 1) >>= fun _ => interact w (n + 1) (ts.map .line ++ ins)) { s0 with ctx := c2 } := by
    refine a4.trans ?_
    have : (do pushContextNew; setArg0; startFiles w (n + 1); interact w (n + 1) (ts.map .line ++ ins) : M Unit) =
        ((do pushContextNew; setArg0 : M Unit) >>= fun _ => startFiles w (n + 1) >>= fun _ =>
          interact w (n + 1) (ts.map .line ++ ins)) := by
      simp only [bind_assoc]
    rw [this, run_bind_ok hrun]
  have henv : s0.env = b.env := by
    rw [a1.rest]
    rfl
  obtain ⟨σ, s3, f0, f2, hr', hok, hsaid, ⟨hgo, f1⟩ | ⟨c, hx, rfl, f1, f3⟩⟩ := start_files ok S hok0 n start hr ⟨left, rfl, hl⟩
  · have hsame3 := f2.same
    unfold MiniSame at hsame3
    obtain ⟨d, m, i1, i2⟩ := interact_run w (n + 1) (ts.map .line ++ ins) (b := b) (waits := τ.reported ++ left) (s := s3)
      (by rw [hsame3]; show s0.sigMode = _; rw [a1.rest]; rfl) (by rw [hsame3]; show s0.disp = _; rw [a1.rest]; rfl)
      (by rw [hsame3]; show s0.forked = _; rw [a1.rest]; rfl)
    have i3 : ∀ g, d g = .ign ↔ s0.disp g = .ign := fun g => by rw [i2 g, a1.rest]; exact .rfl
    obtain ⟨s2, e2, e1, e3, e4⟩ := fn_session (s0 := { s0 with ctx := c2, disp := d, sigMode := m, historyLoc := cs!"history.txt" })
      ⟨S.res, S.pids, S.inj, S.dirs, S.fds, S.held, S.own, S.forked, S.noAlias, S.msgs,
        fun p r hf => TextIs.rebase (s := { s0 with ctx := c2 })
          (s' := { s0 with ctx := c2, disp := d, sigMode := m, historyLoc := cs!"history.txt" }) rfl rfl (fun _ h => h) (S.texts p r hf),
        fun p r hf => FileIs.rebase (s := { s0 with ctx := c2 })
          (s' := { s0 with ctx := c2, disp := d, sigMode := m, historyLoc := cs!"history.txt" }) rfl rfl (fun _ h => h) (S.files p r hf),
        S.absent, S.params⟩ n hs
      (f2.handled i3 m (cs!"history.txt")) hgo (fun l hl => FnLineOk.rebase (s := { s0 with ctx := c2 })
        (s' := { s0 with ctx := c2, disp := d, sigMode := m, historyLoc := cs!"history.txt" }) rfl rfl rfl rfl rfl (fun _ h => h) (hok l hl)) hr'
      ⟨left, rfl, hl⟩
    have hloc : s2.historyLoc = cs!"history.txt" := by
      have hsame := e2.same
      unfold MiniSame at hsame
      rw [hsame]
    rw [run_bind_ok f1, i1] at hmain
    have hfd : s2.fds = (b.sh []).fds := by
      have hsame := e2.same
      unfold MiniSame at hsame
      rw [hsame]
      show s0.fds = _
      rw [a1.rest]
      rfl
    have hw : SilentStart w b → WroteAll s2 (argTalk w argv0 rest ++ u.wholeSession n b ts lines) := fun hq => by
      unfold FnWorld.wholeSession
      rw [f0]
      exact wrote_all hne hopt a1 (c2 := c2) hpa (hsaid hq) rfl e4
    exact ⟨s2, e2.followed henv i2 hq, List.append_cancel_left e2.waits, e2.ps1, hw, hfd, fun π hπ => (by rw [f0] at hπ; cases hπ; rw [hgo]; exact hloc),
      fun e => ⟨hloc, hmain.trans (loop_visits (e1 e) (by simp [GoesOnAfter]) ins)⟩,
      fun c e => ⟨(e3 c e).2, hmain.trans ((e3 c e).1.loop ins)⟩⟩
  · refine ⟨s3, f2.followed henv ?_ hq, List.append_cancel_left f2.waits, f2.ps1, fun hq => ?_, ?_, fun π hπ => ?_, fun e => ?_, fun c' e => ?_⟩
    · show ∀ g, s0.disp g = _ ↔ _
      rw [a1.rest]
      exact fun _ => .rfl
    · unfold FnWorld.wholeSession
      rw [f0]
      exact wrote_all hne hopt a1 (c2 := c2) hpa (hsaid hq) rfl (by simp [talk_ended (u := u) (n := n) (σ := τ) (by rw [hx]; rfl)])
    · have hsame := f2.same
      unfold MiniSame at hsame
      rw [hsame]
      show s0.fds = _
      rw [a1.rest]
      rfl
    · rw [f0] at hπ
      cases hπ
      rw [hx]
      have hsame := f2.same
      unfold MiniSame at hsame
      rw [hsame]
      show s0.historyLoc = _
      rw [a1.rest]
      rfl
    · rw [hx] at e; cases e
    · rw [hx] at e
      cases e
      exact ⟨f3, hmain.trans (run_bind_exit f1 _)⟩

/-- C166, a session that comes to `exit`: the shell, started without script, runs the pipelines the reference runs, and
no others; then it ends with the status of the reference.  The last thing it does is to save the history, in
`history.txt`; but if it is a start-up file that comes to `exit`, no file is chosen yet, and the name is empty.  The shell
itself writes what it says of its arguments, what `pwd` says in start-up files, and for the lines what is said in C164, if
start-up files without a program are missing or blank. -/
theorem C166_exit (w : World) (u : FnWorld) (b : Origin) (lines : List FnLine) (ok : OriginOk w u b lines)
    (argv0 : Str) (rest : List Str) (hne : argv0 ≠ []) (hopt : ¬ (IsOption argv0 ∧ 'c' ∈ argv0))
    (hi : invocation rest = .interactive) (n : Nat) (τ : FnState)
    (hr : u.whole n b (cs!"rsh") [] lines = some τ) (c : Int) (hc : τ.ended = some c)
    (left : List WRes) (hl : .eintr ∉ left) (ts : List Str)
    (hs : ScriptOf ts lines) (post : List SessionIn) (k : Nat) :
    ∃ s', mainM w (n + 1) k (argv0 :: rest) (ts.map .line ++ post) (b.sh (τ.reported ++ left)) = (.exit c, s') ∧
      Followed u b τ s' ∧ s'.waits = left ∧ SavedLast w s' ∧
      (∀ σ, u.startUp n b.starting (b.ref (cs!"rsh") []) = some σ →
        s'.historyLoc = if σ.ended.isSome then [] else cs!"history.txt") ∧
      (SilentStart w b → WroteAll s' (argTalk w argv0 rest ++ u.wholeSession n b ts lines)) := by
  obtain ⟨s2, a1, a2, -, hw, -, a4, -, a6⟩ := interactive_run ok hne hopt hi hr hl hs k post
  exact ⟨s2, (a6 c hc).2, a1, a2, (a6 c hc).1, a4, hw⟩

/-- C166, a session that ends with the end of the input: the same; the shell ends with status 0.  There is one
more prompt. -/
theorem C166_eof (w : World) (u : FnWorld) (b : Origin) (lines : List FnLine) (ok : OriginOk w u b lines)
    (argv0 : Str) (rest : List Str) (hne : argv0 ≠ []) (hopt : ¬ (IsOption argv0 ∧ 'c' ∈ argv0))
    (hi : invocation rest = .interactive) (n : Nat) (τ : FnState)
    (hr : u.whole n b (cs!"rsh") [] lines = some τ) (hc : τ.ended = none) (left : List WRes) (hl : .eintr ∉ left)
    (ts : List Str) (hs : ScriptOf ts lines) (post : List SessionIn) (k : Nat) :
    ∃ s', mainM w (n + 1) k (argv0 :: rest) (ts.map .line ++ .eof :: post) (b.sh (τ.reported ++ left)) = (.ok (), s') ∧
      Followed u b τ s' ∧ s'.waits = left ∧ SavedLast w s' ∧ s'.historyLoc = cs!"history.txt" ∧
      (SilentStart w b → WroteAll s' (argTalk w argv0 rest ++ u.wholeSession n b ts lines ++ [(seen τ.scopes (cs!"PS1")).getD []])) := by
  obtain ⟨s2, a2, a3, a5, hw, hfd, -, a6, -⟩ := interactive_run ok hne hopt hi hr hl hs k (.eof :: post)
  obtain ⟨ps, hps1⟩ := Option.ne_none_iff_exists'.1 a5
  let s3 : Sh := { s2 with trace := .print ((s2.fds.get 1).map FdE.chan) ps :: s2.trace }
  let e : Event := if w.saveOk s3.trace s3.historyLoc then .saveHistory s3.historyLoc
    else .eprint ((s3.fds.get 2).map FdE.chan) (cs!"Could not save history.\n")
  have hq : forks (e :: s3.trace) = forks s2.trace ∧ execs (e :: s3.trace) = execs s2.trace := by
    simp only [e]
    split <;> exact ⟨rfl, rfl⟩
  refine ⟨{ s3 with trace := e :: s3.trace }, ?_, a2.ended (m := s2.masked) rfl hq.1 hq.2, a3, ⟨s3.trace, rfl⟩, (a6 hc).1, fun hq => ?_⟩
  rotate_left
  · have e1 : printed (e :: s3.trace) = printed s3.trace := by
      simp only [e]
      split <;> simp [printed]
    have e2 : ((b.sh []).fds.get 1).map FdE.chan = some (.orig 1) := rfl
    have e3 : seen τ.scopes (cs!"PS1") = some ps := by rw [← a2.values _ (unqualified_iff.2 rfl), hps1]
    show printed (e :: s3.trace) = _
    rw [e1, printed_print, hfd, e2, show printed s2.trace = _ from hw hq, e3]
    simp
  rw [(a6 hc).2]
  have : interactiveLoop w (n + 1) (.eof :: post) = (do prompt; saveHistory w : M Unit) := by
    unfold prompt
    rw [interactiveLoop]
    simp only [bind_assoc]
  rw [this, run_bind_ok (prompt_some hps1)]
  unfold saveHistory
  rw [run_getS_bind]
  simp only [e]
  show (if w.saveOk s3.trace s3.historyLoc = true then emit (.saveHistory s3.historyLoc) else _ : M Unit) s3 = _
  split <;> rfl

/-! An example. -/

/-- The script: its line is the second one of C164, with another layout; then `exit`. -/
def Spec.fnScript : Str := cs!"\nexport y='3 4'&&unset x;mail $1 $y\nexit 3\nls\n"

/-- The start-up file: the first line of C164, with another layout. -/
def Spec.fnRc : Str := cs!"x=1\nagain() { make $1&&again b;y=2; } # try\nagain a\n"

/-- The outside world with these files. -/
def Spec.fnFiles : World := demoWorld [(cs!"s", fnScript), (cs!"~/.rshrc", fnRc)]

/-- There is nothing but `PATH` in the environment. -/
def Spec.fnOrigin : Origin :=
  { root := false, ppid := 1, pid := 2, cwd := cs!"/", env := [(cs!"PATH", cs!"/bin")], rc := some fnFirst }

/-- The line ` exit` with or without a status. -/
def Spec.fnExit (code : Option Int) : FnLine := { first := .chain { first := .exit code } }

theorem fnExit_ok {w : World} {u : FnWorld} {s : Sh} {code : Option Int} (h : ∀ c, code = some c → Code c) :
    FnLineOk w u s (fnExit code) := by
  intro i hi
  rw [List.mem_singleton.1 hi]
  intro c hc t ht
  rw [List.mem_singleton.1 hc] at ht
  rw [List.mem_singleton.1 ht]
  exact h

theorem fnLines_start : ∀ l ∈ fnLines, FnLineOk fnFiles fnWorld (fnOrigin.sh []) l := fun l hl => by
  refine FnLineOk.rebase (w := demoWorld []) (w' := fnFiles) rfl rfl rfl
    (s := atPrompt [] fnReports) (s' := fnOrigin.sh [])
    (by decide +kernel) (by decide +kernel) ?_
    (fnLines_ok.lines l hl)
  intro x _ i hi b hb
  have : ∀ i ∈ (fnOrigin.sh []).ctx.stack, ∀ p ∈ ((fnOrigin.sh []).ctx.heap i).vars, p.2.readonly = false := by
    decide +kernel
  exact this i hi _ (lookup_mem hb)

theorem fnOrigin_ok {lines : List FnLine} (hlines : ∀ l ∈ lines, FnLineOk fnFiles fnWorld (fnOrigin.sh []) l) :
    OriginOk fnFiles fnWorld fnOrigin lines := by
  exact {
    env := by decide
    values := fun x v _ h => by
      unfold Origin.vars at h
      rcases Option.or_eq_some_iff.1 h with h | ⟨-, h⟩
      · have : ∀ p ∈ fnOrigin.env, CleanValue p.2 := by decide
        exact this _ (lookup_mem h)
      · have : ∀ p ∈ defaults fnOrigin.root fnOrigin.ppid fnOrigin.pid fnOrigin.cwd, CleanValue p.2 := by decide +kernel
        exact this _ (lookup_mem h)
    rc := ⟨fnRc, fun _ => rfl, .trans rfl (parse_program (fn_line_program (fnLines_start fnFirst (by simp [fnLines])))).symm⟩
    profile := fun _ => trivial
    res := demo_resources _
    pids := fun _ => rfl
    inj := fun i j h => by simpa [fnWorld] using h
    dirs := fun _ _ _ => rfl
    texts := fun _ _ h => nomatch h
    files := fun _ _ h => nomatch h
    absent := fun _ h => nomatch h
    msgs := ⟨rfl, fun _ => rfl⟩
    lines := fun l hl => by
      rcases List.mem_append.1 hl with h | h
      · exact fnLines_start l (by simp [fnLines, List.mem_singleton.1 (show l ∈ [fnFirst] from h)])
      · exact hlines l h }

theorem fnOrigin_silent : SilentStart fnFiles fnOrigin := ⟨nofun, fun _ _ => .inl rfl⟩

theorem fnSecond_start : FnLineOk fnFiles fnWorld (fnOrigin.sh []) fnSecond := fnLines_start _ (by simp [fnLines])

theorem fnSecond_exit {code : Option Int} (h : ∀ c, code = some c → Code c) :
    ∀ l ∈ [fnSecond, fnExit code], FnLineOk fnFiles fnWorld (fnOrigin.sh []) l := by
  intro l hl
  simp only [List.mem_cons, List.not_mem_nil, or_false] at hl
  rcases hl with rfl | rfl
  · exact fnSecond_start
  · exact fnExit_ok h

theorem fnScript_lines {t : Str} {code : Option Int} (ht : parse t = parse (fnExit code).text) :
    ScriptOf [cs!"\n", cs!"export y='3 4'&&unset x;mail $1 $y\n", t] [fnSecond, fnExit code] :=
  .skip rfl (.line (.trans rfl (parse_program (fn_line_program fnSecond_start)).symm) (.line ht .nil))

/-- `rsh s p`: the parameter of the script is overwritten by those of the calls, so `mail` gets `b`; the shell ends with
status 3. -/
example : ∃ τ s', fnWorld.whole 2 fnOrigin (cs!"s") [cs!"p"] [fnSecond, fnExit (some 3)] = some τ ∧
    τ.ran = [⟨cs!"/", [], [[cs!"make", cs!"a"]], [], [], [false]⟩, ⟨cs!"/", [], [[cs!"make", cs!"b"]], [], [], [false]⟩,
      ⟨cs!"/", [(cs!"y", cs!"3 4")], [[cs!"mail", cs!"b", cs!"3 4"]], [], [], [false]⟩] ∧
    mainM fnFiles 3 7 [cs!"rsh", cs!"s", cs!"p"] [] (fnOrigin.sh τ.reported) = (.exit 3, s') ∧
    Followed fnWorld fnOrigin τ s' ∧ WroteAll s' [cs!"arg: rsh\n", cs!"arg: s\n", cs!"arg: p\n"] := by
  obtain ⟨τ, hτ, h1, h2⟩ : ∃ τ, fnWorld.whole 2 fnOrigin (cs!"s") [cs!"p"] [fnSecond, fnExit (some 3)] = some τ ∧
      τ.ran = [⟨cs!"/", [], [[cs!"make", cs!"a"]], [], [], [false]⟩, ⟨cs!"/", [], [[cs!"make", cs!"b"]], [], [], [false]⟩,
        ⟨cs!"/", [(cs!"y", cs!"3 4")], [[cs!"mail", cs!"b", cs!"3 4"]], [], [], [false]⟩] ∧ τ.ended = some 3 := by
    have : ((fnWorld.whole 2 fnOrigin (cs!"s") [cs!"p"] [fnSecond, fnExit (some 3)]).any fun τ => decide (τ.ran =
        [⟨cs!"/", [], [[cs!"make", cs!"a"]], [], [], [false]⟩, ⟨cs!"/", [], [[cs!"make", cs!"b"]], [], [], [false]⟩,
          ⟨cs!"/", [(cs!"y", cs!"3 4")], [[cs!"mail", cs!"b", cs!"3 4"]], [], [], [false]⟩] ∧ τ.ended = some 3)) = true := by decide +kernel
    obtain ⟨τ, h1, h2⟩ := (Option.any_eq_true _ _).1 this
    exact ⟨τ, h1, of_decide_eq_true h2⟩
  obtain ⟨s', a1, a2, -, -, a3⟩ := C165_script _ _ _ _ (fnOrigin_ok (fnSecond_exit (code := some 3) (by rintro c ⟨⟩; unfold Code; omega)))
    (cs!"rsh") [cs!"s", cs!"p"] (by decide) (by decide) (cs!"s")
    [cs!"p"] (by decide) (by decide) (by decide) (by decide) 2 τ hτ 3 h2 [] (by simp) fnScript
    [cs!"\n", cs!"export y='3 4'&&unset x;mail $1 $y\n", cs!"exit 3\n"] [cs!"ls\n"]
    (fun _ => rfl)
    (.cons (l := []) (by decide) (.cons (l := cs!"export y='3 4'&&unset x;mail $1 $y") (by decide)
      (.cons (l := cs!"exit 3") (by decide) (.cons (l := cs!"ls") (by decide) .nil))))
    (fnScript_lines (.trans rfl (parse_program (fn_line_program (fnExit_ok (w := fnFiles) (u := fnWorld) (s := fnOrigin.sh [])
      (code := some 3) (by rintro c ⟨⟩; unfold Code; omega)))).symm)) 7 []
  rw [List.append_nil] at a1
  refine ⟨τ, s', hτ, h1, a1, a2, ?_⟩
  have : argTalk fnFiles (cs!"rsh") [cs!"s", cs!"p"] ++ fnWorld.wholeTalk 2 fnOrigin (cs!"s") [cs!"p"] [fnSecond, fnExit (some 3)] =
      [cs!"arg: rsh\n", cs!"arg: s\n", cs!"arg: p\n"] := by decide +kernel
  rw [← this]
  exact a3 fnOrigin_silent

/-- With `-c`. -/
example (k : Nat) (ins : List SessionIn) (τ : FnState)
    (hr : fnWorld.whole 2 fnOrigin (cs!"rsh") [] [fnSecond] = some τ) :
    ∃ s', mainM fnFiles 3 k [cs!"rsh", cs!"-c", fnSecond.text] ins (fnOrigin.sh (τ.reported ++ [])) =
      ((match τ.ended with | some c => .exit c | none => .ok ()), s') ∧ Followed fnWorld fnOrigin τ s' ∧ s'.waits = [] ∧
      (SilentStart fnFiles fnOrigin → WroteAll s' (argTalk fnFiles (cs!"rsh") [cs!"-c", fnSecond.text] ++
        fnWorld.wholeTalk 2 fnOrigin (cs!"rsh") [] [fnSecond])) :=
  C165_program _ _ _ fnSecond (fnOrigin_ok (by simpa using fnSecond_start)) (cs!"rsh") [cs!"-c", fnSecond.text] (by decide)
    (by decide) fnSecond.text
    (by simp [invocation, show IsOption (cs!"-c") from ⟨_, rfl⟩, List.intercalate]) rfl 2 τ hr [] (by simp) k ins

/-- The same lines typed at the prompt, then `exit`: the status is that of `mail`.  Here the shell has no parameters, so that
those of the calls are gone. -/
example : ∃ τ s', fnWorld.whole 2 fnOrigin (cs!"rsh") [] [fnSecond, fnExit none] = some τ ∧
    τ.ran = [⟨cs!"/", [], [[cs!"make", cs!"a"]], [], [], [false]⟩, ⟨cs!"/", [], [[cs!"make", cs!"b"]], [], [], [false]⟩,
      ⟨cs!"/", [(cs!"y", cs!"3 4")], [[cs!"mail", cs!"$1", cs!"3 4"]], [], [], [false]⟩] ∧
    mainM fnFiles 3 7 [cs!"rsh"] ([.line (cs!"\n"), .line (cs!"export y='3 4'&&unset x;mail $1 $y\n"),
      .line (cs!" exit"), .line (cs!"ls")]) (fnOrigin.sh τ.reported) = (.exit 0, s') ∧
    Followed fnWorld fnOrigin τ s' ∧ WroteAll s' [cs!"$ ", cs!"$ ", cs!"$ "] := by
  obtain ⟨τ, hτ, h1, h2⟩ : ∃ τ, fnWorld.whole 2 fnOrigin (cs!"rsh") [] [fnSecond, fnExit none] = some τ ∧
      τ.ran = [⟨cs!"/", [], [[cs!"make", cs!"a"]], [], [], [false]⟩, ⟨cs!"/", [], [[cs!"make", cs!"b"]], [], [], [false]⟩,
        ⟨cs!"/", [(cs!"y", cs!"3 4")], [[cs!"mail", cs!"$1", cs!"3 4"]], [], [], [false]⟩] ∧ τ.ended = some 0 := by
    have : ((fnWorld.whole 2 fnOrigin (cs!"rsh") [] [fnSecond, fnExit none]).any fun τ => decide (τ.ran =
        [⟨cs!"/", [], [[cs!"make", cs!"a"]], [], [], [false]⟩, ⟨cs!"/", [], [[cs!"make", cs!"b"]], [], [], [false]⟩,
          ⟨cs!"/", [(cs!"y", cs!"3 4")], [[cs!"mail", cs!"$1", cs!"3 4"]], [], [], [false]⟩] ∧
        τ.ended = some 0)) = true := by decide +kernel
    obtain ⟨τ, h1, h2⟩ := (Option.any_eq_true _ _).1 this
    exact ⟨τ, h1, of_decide_eq_true h2⟩
  obtain ⟨s', a1, a2, -, -, -, a3⟩ := C166_exit _ _ _ _ (fnOrigin_ok (fnSecond_exit (code := none) nofun)) (cs!"rsh") [] (by decide)
    (by decide) rfl 2 τ hτ 0 h2 [] (by simp)
    [cs!"\n", cs!"export y='3 4'&&unset x;mail $1 $y\n", cs!" exit"] (fnScript_lines rfl) [.line (cs!"ls")] 7
  rw [List.append_nil] at a1
  refine ⟨τ, s', hτ, h1, a1, a2, ?_⟩
  have : argTalk fnFiles (cs!"rsh") [] ++ fnWorld.wholeSession 2 fnOrigin
      [cs!"\n", cs!"export y='3 4'&&unset x;mail $1 $y\n", cs!" exit"] [fnSecond, fnExit none] = [cs!"$ ", cs!"$ ", cs!"$ "] := by
    decide +kernel
  rw [← this]
  exact a3 fnOrigin_silent

/-- The outside world with a second start-up file. -/
def Spec.fnFilesQuit : World := demoWorld [(cs!"~/.rshrc", fnRc), (cs!"~/.profile", cs!"exit 5\n")]

/-- How the shell is started. -/
def Spec.fnOriginQuit : Origin := { fnOrigin with profile := some (fnExit (some 5)) }

theorem fnOriginQuit_ok : OriginOk fnFilesQuit fnWorld fnOriginQuit [] :=
  have ok : OriginOk fnFiles fnWorld fnOrigin [] := fnOrigin_ok (by simp)
  have five : ∀ c, some 5 = some c → Code c := by rintro c ⟨⟩; unfold Code; omega
  { env := ok.env
    values := ok.values
    rc := by
      obtain ⟨t, h1, h2⟩ := ok.rc
      cases h1 []
      exact ⟨fnRc, fun _ => rfl, h2⟩
    profile := ⟨_, fun _ => rfl, .trans rfl (parse_program (fn_line_program (fnExit_ok (w := fnFilesQuit) (u := fnWorld)
      (s := fnOrigin.sh []) (code := some 5) five))).symm⟩
    res := demo_resources _
    pids := fun _ => rfl
    inj := ok.inj
    dirs := fun _ _ _ => rfl
    texts := fun _ _ h => nomatch h
    files := fun _ _ h => nomatch h
    absent := fun _ h => nomatch h
    msgs := ⟨rfl, fun _ => rfl⟩
    lines := by
      intro l hl
      rw [List.append_nil] at hl
      simp only [Origin.starting, fnOriginQuit, fnOrigin, Option.toList_some, List.cons_append, List.nil_append,
        List.mem_cons, List.not_mem_nil, or_false] at hl
      rcases hl with rfl | rfl
      · exact FnLineOk.rebase (w := fnFiles) (w' := fnFilesQuit) (s := fnOrigin.sh []) (s' := fnOrigin.sh []) rfl rfl rfl rfl rfl
          (fun _ h => h) (ok.lines fnFirst (by simp [Origin.starting, fnOrigin]))
      · exact fnExit_ok five }

/-- `exit 5` in `~/.profile`: nothing is read from the terminal. -/
example : ∃ τ s', τ.ran = [⟨cs!"/", [], [[cs!"make", cs!"a"]], [], [], [false]⟩, ⟨cs!"/", [], [[cs!"make", cs!"b"]], [], [], [false]⟩] ∧
    mainM fnFilesQuit 3 7 [cs!"rsh"] [.line (cs!"ls")] (fnOriginQuit.sh τ.reported) = (.exit 5, s') ∧
    Followed fnWorld fnOriginQuit τ s' ∧ s'.historyLoc = [] := by
  obtain ⟨τ, hτ, h1, h2, h3⟩ : ∃ τ, fnWorld.whole 2 fnOriginQuit (cs!"rsh") [] [] = some τ ∧
      τ.ran = [⟨cs!"/", [], [[cs!"make", cs!"a"]], [], [], [false]⟩, ⟨cs!"/", [], [[cs!"make", cs!"b"]], [], [], [false]⟩] ∧ τ.ended = some 5 ∧
      ∃ σ, fnWorld.startUp 2 fnOriginQuit.starting (fnOriginQuit.ref (cs!"rsh") []) = some σ ∧ σ.ended.isSome = true := by
    have : ((fnWorld.whole 2 fnOriginQuit (cs!"rsh") [] []).any fun τ => decide (τ.ran =
        [⟨cs!"/", [], [[cs!"make", cs!"a"]], [], [], [false]⟩, ⟨cs!"/", [], [[cs!"make", cs!"b"]], [], [], [false]⟩] ∧
        τ.ended = some 5)) = true := by decide +kernel
    obtain ⟨τ, h1, h2⟩ := (Option.any_eq_true _ _).1 this
    have h2 := of_decide_eq_true h2
    refine ⟨τ, h1, h2.1, h2.2, ?_⟩
    obtain ⟨σ, h3, h4⟩ := Option.bind_eq_some_iff.1 h1
    cases h4
    exact ⟨_, h3, by rw [h2.2]; rfl⟩
  obtain ⟨σ, h3, h4⟩ := h3
  obtain ⟨s', a1, a2, -, -, a3, -⟩ := C166_exit _ _ _ _ fnOriginQuit_ok (cs!"rsh") [] (by decide)
    (by decide) rfl 2 τ hτ 5 h2 [] (by simp) [] .nil [.line (cs!"ls")] 7
  rw [List.append_nil] at a1
  exact ⟨τ, s', h1, a1, a2, by rw [a3 σ h3, if_pos h4]⟩

end Rsh
