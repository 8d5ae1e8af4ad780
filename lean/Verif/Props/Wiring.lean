import Verif.Proofs.Wiring
import Verif.Props.Redirections

/-!
# Property C168: redirections and assignments within pipelines
-/

namespace Rsh

open Spec

/-- The line of a pipeline. -/
def Spec.rpipeLine (c : RCmd) (cs : List RCmd) (bg : Bool) : TLine :=
  { first := { first := { first := c.tcmd, rest := cs.map RCmd.tcmd, background := bg } } }

/-- The redirections of the `i`-th command. -/
def Spec.redirsAt (cs : List RCmd) (i : Nat) : List Redir := ((cs[i]?).map RCmd.redirs).getD []

/-- The `i`-th command is started by the `i`-th process: its files are opened, then it is the program. -/
def Spec.startsOf (cs : List RCmd) (pids : List Nat) (imgs : List ExecImage) : List Event :=
  (List.zip cs (List.zip pids imgs)).map fun p =>
    .spawn p.2.1 (.exec p.2.2) (p.1.redirs.map fun r => .opened r.op r.file)

theorem rpipe_parse {s : Sh} {c : RCmd} {cs : List RCmd} (bg : Bool) (hok : ∀ d ∈ c :: cs, d.Ok s) :
    parse (rpipeLine c cs bg).text =
        some (some [.mk none none (.mk false (((c :: cs).map RCmd.ext).map Ext.command) bg)]) ∧
      (rpipeLine c cs bg).text ≠ [] := by
  have h : (rpipeLine c cs bg).Ok := by
    intro d hd
    have : d ∈ (c :: cs).map RCmd.tcmd := by
      simpa [rpipeLine, TLine.cmds, TPipe.cmds] using hd
    obtain ⟨e, he, rfl⟩ := List.mem_map.1 this
    exact RCmd.tcmd_ok (hok e he)
  refine ⟨?_, TLine.text_ne h⟩
  have e : ((c :: cs).map RCmd.tcmd).map (fun c => Command.simple c.command) = ((c :: cs).map RCmd.ext).map Ext.command := by
    rw [List.map_map, List.map_map]
    exact List.map_congr_left fun c _ => RCmd.command_ext c
  rw [parse_tline h, ← e]
  rfl

theorem starts_eq : ∀ (kids : List Kid) (cs : List RCmd) (imgs : List ExecImage), kids.length = cs.length →
    imgs.length = cs.length → (∀ (i : Nat) c img, cs[i]? = some c → imgs[i]? = some img →
      ∃ pid, kids[i]? = some (pid, .exec img, c.redirs.map fun r => Event.opened r.op r.file)) →
    kids.map Kid.event = startsOf cs (kids.map Prod.fst) imgs
  | [], [], [], _, _, _ => rfl
  | [], _ :: _, _, h, _, _ => by simp at h
  | _ :: _, [], _, h, _, _ => by simp at h
  | _, [], _ :: _, _, h, _ => by simp at h
  | _, _ :: _, [], _, h, _ => by simp at h
  | k :: ks, c :: cs, img :: imgs, h1, h2, h3 => by
    obtain ⟨pid, hp⟩ := h3 0 c img rfl rfl
    have hk : k = (pid, .exec img, c.redirs.map fun r => Event.opened r.op r.file) := by simpa using hp
    have ih := starts_eq ks cs imgs (by simpa using h1) (by simpa using h2) fun i c img hc hi => h3 (i + 1) c img hc hi
    rw [List.map_cons, ih, hk]
    rfl

/-- C168: at every prompt, for every pipeline of external commands with redirections and assignments in any of them, in
the foreground or in the background: one process is started for each command, in order, which opens the files of that
command and then is its program; what is redirected leads to the file of the last redirection, also where it would lead
to a pipe otherwise, and all else is connected as without redirections; the environment of each program is that of the
shell with the assignments of its own command only.  (A redirection is about the descriptor of its operator, and the file
is the text as typed; for numbers and quotes see C69.) -/
theorem C168_members (w : World) (hw : Resources w) (n : Nat) (s : Sh) (hp : AtPrompt w s) (c : RCmd) (cs : List RCmd)
    (bg : Bool) (hok : ∀ d ∈ c :: cs, d.Ok s) (hk : ∀ d ∈ c :: cs, d.Kept)
    (hplain : ∀ d ∈ c :: cs, ∀ a ∈ frontAssigns d.front, a.2 = .plain a.2.text)
    (ho : ∀ d ∈ c :: cs, ∀ r ∈ d.redirs, ∀ tr, w.openOk (tr ++ s.trace) r.op r.file = true) (file : Str → Str)
    (hrun : ∀ d ∈ c :: cs, ∀ tr, Runnable w s (tr ++ s.trace) d.name (file d.name)) :
    ∃ (pids : List Nat) (imgs : List ExecImage), pids.length = (c :: cs).length ∧ imgs.length = (c :: cs).length ∧
      Happened s (interactiveLine w (n + 1) (rpipeLine c cs bg).text s).2 (startsOf (c :: cs) pids imgs) ∧
      Wired (redirsAt (c :: cs)) imgs ∧
      ∀ (i : Nat) d img, (c :: cs)[i]? = some d → imgs[i]? = some img →
        img.path = file d.name ∧ img.argv = d.argv ∧ Launched s img ∧ img.ownGroup = (bg || s.ownGroup) ∧
        ∀ y, img.env.get y = (lastAssigned y ((frontAssigns d.front).map typedValue)).or (s.env.get y) := by
  have hfds := AtPrompt_resources_fds hw hp
  obtain ⟨hparse, hne⟩ := rpipe_parse bg hok
  obtain ⟨kids, hkids, hh⟩ := line_children hw n ((c :: cs).map RCmd.ext) (by simp) false bg (by
    intro e he
    obtain ⟨d, hd, rfl⟩ := List.mem_map.1 he
    exact RCmd.ext_ok (hok d hd)) (by rw [hfds]; exact stdTable_std) hparse hne
  rw [List.map_map] at hkids
  have hok1 : ∀ d ∈ c :: cs, d.Ok { s with masked := true } := by
    intro d hd
    obtain ⟨k1, k2, k3, k4, k5, k6, k7, k8, k9⟩ := hok d hd
    exact ⟨k1, k2, k3, k4, k5, k6, k7, k8, k9⟩
  obtain ⟨imgs, i1, i2, i3⟩ := Kids.rimages (file := file) hkids hok1 hfds
    (fun d hd r hr tr => ho d hd r (by rw [RCmd.applied_kept (hk d hd)] at hr; exact hr) tr)
    (fun d hd tr => by
      obtain ⟨a1, a2, a3⟩ := hrun d hd tr
      exact ⟨a1, a2, a3⟩)
  have hkl : kids.length = (c :: cs).length := by rw [hkids.length, List.length_map]
  have hget : ∀ (i : Nat) img, imgs[i]? = some img → ∃ d, (c :: cs)[i]? = some d := by
    intro i img hi
    have := (List.getElem?_eq_some_iff.1 hi).1
    exact ⟨_, List.getElem?_eq_getElem (by omega)⟩
  refine ⟨kids.map Prod.fst, imgs, by rw [List.length_map, hkl], i2, ?_, ⟨fun j => s.nextPipe + j,
    fun i j e => Nat.add_left_cancel e, fun i img hi fd => ?_⟩, fun i d img hd hi => ?_⟩
  · rw [← starts_eq kids (c :: cs) imgs hkl i2 fun i d img hd hi => by
      obtain ⟨pid, hp⟩ := (i3 i d img hd hi).1
      rw [RCmd.applied_kept (hk d (List.mem_of_getElem? hd))] at hp
      exact ⟨pid, hp⟩]
    exact hh
  · obtain ⟨d, hd⟩ := hget i img hi
    rw [(i3 i d img hd hi).2.2.2.2.2.2 fd, RCmd.applied_kept (hk d (List.mem_of_getElem? hd)), i2]
    have : redirsAt (c :: cs) i = d.redirs := by
      unfold redirsAt
      rw [hd]
      rfl
    rw [this]
    rfl
  · obtain ⟨-, a1, a2, a3, a4, a5, -⟩ := i3 i d img hd hi
    refine ⟨a1, a2, ⟨a3.1, a3.2, a3.3⟩, a4, fun y => ?_⟩
    rw [a5 y]
    have hm := List.mem_of_getElem? hd
    have e : (frontAssigns d.front).map typedValue = (frontAssigns d.front).map cutValue := by
      refine List.map_congr_left fun a ha => ?_
      have h1 := ((hok d hm).assigns a ha).2.1
      rw [hplain d hm a ha] at h1
      have h2 := List.takeWhile_append_of_pos (p := fun d => decide (d ≠ '=')) (l₁ := a.2.text) (l₂ := []) fun d hd => by
        simpa using fun e : d = '=' => (h1.2.1 _ hd).2 (by rw [e]; decide)
      rw [List.append_nil, List.takeWhile_nil, List.append_nil] at h2
      unfold typedValue cutValue
      rw [h2]
    rw [e]

/-- `sort x < inp`. -/
def rpipeLast : RCmd where
  name := cs!"sort"
  back := [.arg (word (cs!"x")).1 (word (cs!"x")).2, .redir ⟨.input, .plain (cs!"inp"), none⟩]

theorem rpipeLast_ok : rpipeLast.Ok (atPrompt []) where
  redirs := by
    intro r hr
    simp only [rpipeLast, RCmd.redirs, frontRedirs, backRedirs, List.nil_append, List.mem_cons,
      List.not_mem_nil, or_false] at hr
    subst hr
    exact ⟨by decide, by decide, by decide⟩
  assigns := nofun
  name := by decide
  external := by decide
  alias := by decide +kernel
  function := by decide +kernel
  typed := by decide
  means := by
    intro a ha
    simp only [rpipeLast, backArgs, List.mem_cons, List.not_mem_nil, or_false] at ha
    subst ha
    exact means_word (by decide)
  nul := by decide

/-- `A=1 <inp A=2 prog >a x >>b | sort x < inp`: neither of the two uses the pipe. -/
example : ∃ pid1 pid2 img1 img2, Happened (atPrompt [])
      (interactiveLine (demoWorld []) 20 (rpipeLine redirSample [rpipeLast] false).text (atPrompt [])).2
      [.spawn pid1 (.exec img1) [.opened .input (cs!"inp"), .opened .output (cs!"a"), .opened .append (cs!"b")],
       .spawn pid2 (.exec img2) [.opened .input (cs!"inp")]] ∧
    img1.env.get (cs!"A") = some (cs!"2") ∧ img2.env.get (cs!"A") = none ∧
    chanOf img1 1 = some (.file .append (cs!"b")) ∧ chanOf img2 0 = some (.file .input (cs!"inp")) ∧
    chanOf img2 1 = some (.orig 1) := by
  obtain ⟨pids, imgs, h1, h2, h3, ⟨pipe, -, h4⟩, h5⟩ := C168_members (demoWorld []) (demo_resources []) 19 (atPrompt [])
    (atPrompt_ok (by decide +kernel)) redirSample [rpipeLast] false
    (by
      intro d hd
      simp only [List.mem_cons, List.not_mem_nil, or_false] at hd
      rcases hd with rfl | rfl
      · exact redirSample_ok
      · exact rpipeLast_ok)
    (by
      intro d hd
      simp only [List.mem_cons, List.not_mem_nil, or_false] at hd
      rcases hd with rfl | rfl <;> exact .inl (by decide))
    (by
      intro d hd a ha
      simp only [List.mem_cons, List.not_mem_nil, or_false] at hd
      rcases hd with rfl | rfl
      · simp only [redirSample, frontAssigns, List.mem_cons, List.not_mem_nil, or_false] at ha
        rcases ha with rfl | rfl <;> rfl
      · simp [rpipeLast, frontAssigns] at ha)
    (by
      intro d hd r hr tr
      simp only [List.mem_cons, List.not_mem_nil, or_false] at hd
      rcases hd with rfl | rfl
      · simp only [redirSample, RCmd.redirs, frontRedirs, backRedirs, List.cons_append, List.nil_append, List.mem_cons,
          List.not_mem_nil, or_false] at hr
        rcases hr with rfl | rfl | rfl <;> rfl
      · simp only [rpipeLast, RCmd.redirs, frontRedirs, backRedirs, List.nil_append, List.mem_cons,
          List.not_mem_nil, or_false] at hr
        subst hr
        rfl)
    (fun x => cs!"/bin/" ++ x)
    (by
      intro d hd tr
      simp only [List.mem_cons, List.not_mem_nil, or_false] at hd
      rcases hd with rfl | rfl
      · exact demo_runnable (by decide +kernel) (by decide) (by decide) _
      · exact demo_runnable (by decide +kernel) (by decide) (by decide) _)
  match pids, imgs, h1, h2 with
  | [p1, p2], [i1, i2], _, _ =>
    exact ⟨p1, p2, i1, i2, h3, (h5 0 _ i1 rfl rfl).2.2.2.2 _, (h5 1 _ i2 rfl rfl).2.2.2.2 _, h4 0 i1 rfl 1, h4 1 i2 rfl 0,
      h4 1 i2 rfl 1⟩

end Rsh
