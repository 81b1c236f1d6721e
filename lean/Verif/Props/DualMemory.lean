import Verif.Proofs.DualMemory

/-!
# C132 — Runs with separate host and device memory

`runOne` runs a program where an array has one copy (CPU builds), `runSep` where host and device have
a copy each and only the explicit copies move data (GPU builds).  What the loops and kernels compute is
a parameter `C`, so a theorem for every `C` speaks of the placement of the copies in the code and of
nothing else.
-/

namespace Fierro

open Dual Dual.Arr

/-- The rule behind the copies, for any program: if, following the program, no host loop, kernel, branch
or loop test reads a copy that is out of date, then from memories that agree on the up to date copies
both runs end alike: neither ends within the given number of passes, or both end, the run with two
memories without an access to the wrong memory, and the copies said to be up to date hold what the
run with one memory holds. -/
theorem C132_sound {ι V : Type} [DecidableEq ι] (p : Prog ι) (F G : Flags ι)
    (hp : check F p = some G) (C : Code ι V) (n : Nat) (m : Mem ι V) (s : ι → V)
    (hh : ∀ a ∈ F.h, m.host a = s a) (hd : ∀ a ∈ F.d, m.dev a = s a) :
    (runSep C n p m = .more ∧ runOne C n p s = .more) ∨
      ∃ m' s', runSep C n p m = .done m' ∧ runOne C n p s = .done s' ∧
        (∀ a ∈ G.h, m'.host a = s' a) ∧ (∀ a ∈ G.d, m'.dev a = s' a) := by
  have h := check_sound C n p hp m s ⟨hh, hd⟩
  revert h
  cases h₁ : runSep C n p m <;> cases h₂ : runOne C n p s <;> simp [Rel]
  exact fun h => ⟨h.1, h.2⟩

/-- Copying after the kernel, then reading on the host, passes; without the copy it does not. -/
example : check (ι := Bool) ⟨[true], [true]⟩
    (.seq (.run 0 [] [true] [] [true]) (.seq (.pull true) (.run 1 [true] [] [false] []))) =
      some ⟨[false, true], [true]⟩ := by decide

example : check (ι := Bool) ⟨[true], [true]⟩
    (.seq (.run 0 [] [true] [] [true]) (.run 1 [true] [] [false] [])) = none := by decide

/-- A run of the 3D hydrodynamics solver, with contact and fracture, without strength models on the
host: for every mesh source, every list of fields set by the fills, every choice of allocated
material arrays and whatever the kernels compute, the files written with separate memories are
those written with one memory. -/
theorem C132_hydro {V : Type} (C : Code Arr V) (n : Nat) (s : Arr → V) (A : Alloc)
    (fl fn : List Arr) (hl : fl ⊆ fillFields) (hn : fn ⊆ [nodeVel, nodeTemp]) :
    runSep C n (hydroRun false A fl fn) ⟨s, s⟩ ≠ .fault ∧
      (runSep C n (hydroRun false A fl fn) ⟨s, s⟩).map (fun m => m.host files) =
        (runOne C n (hydroRun false A fl fn) s).map (fun t => t files) :=
  have h := run_safe A hl hn (hydro_ok A.level)
  ⟨no_fault h C n s, same_files h files_kept C n s⟩

/-- The same for the axisymmetric solver. -/
theorem C132_axisymmetric {V : Type} (C : Code Arr V) (n : Nat) (s : Arr → V) (A : Alloc)
    (fl fn : List Arr) (hl : fl ⊆ fillFields) (hn : fn ⊆ [nodeVel, nodeTemp]) :
    runSep C n (rzRun A fl fn) ⟨s, s⟩ ≠ .fault ∧
      (runSep C n (rzRun A fl fn) ⟨s, s⟩).map (fun m => m.host files) =
        (runOne C n (rzRun A fl fn) s).map (fun t => t files) :=
  have h := run_safe A hl hn (rz_ok A.level)
  ⟨no_fault h C n s, same_files h files_kept C n s⟩

/-- The same for the thermal solver without a moving heat source. -/
theorem C132_thermal {V : Type} (C : Code Arr V) (n : Nat) (s : Arr → V) (A : Alloc)
    (fl fn : List Arr) (hl : fl ⊆ fillFields) (hn : fn ⊆ [nodeVel, nodeTemp]) :
    runSep C n (thermRun false A fl fn) ⟨s, s⟩ ≠ .fault ∧
      (runSep C n (thermRun false A fl fn) ⟨s, s⟩).map (fun m => m.host files) =
        (runOne C n (thermRun false A fl fn) s).map (fun t => t files) :=
  have h := run_safe A hl hn (therm_ok A.level)
  ⟨no_fault h C n s, same_files h files_kept C n s⟩

/-- With one more copy of the level set to the device after the material state is set up, the level
set solver has the property as well. -/
theorem C132_level_set_pushed {V : Type} (C : Code Arr V) (n : Nat) (s : Arr → V) (A : Alloc)
    (hA : A.level = true) (fl fn : List Arr) (hl : fl ⊆ fillFields) (hn : fn ⊆ [nodeVel, nodeTemp]) :
    runSep C n (levelRunFixed A fl fn) ⟨s, s⟩ ≠ .fault ∧
      (runSep C n (levelRunFixed A fl fn) ⟨s, s⟩).map (fun m => m.host files) =
        (runOne C n (levelRunFixed A fl fn) s).map (fun t => t files) :=
  have h := run_safe A hl hn (p := .seq (.push levelSet) (levelExecute levelReq))
    (by rw [hA]; exact level_ok)
  ⟨no_fault h C n s, same_files h files_kept C n s⟩

/-- The hypotheses hold for the usual fields. -/
example : [fDen, fSie, fUseSie] ⊆ fillFields ∧ [nodeVel] ⊆ [nodeVel, nodeTemp] := by decide

/-- A code that writes the coordinates of the mesh and stops at once. -/
def writeOnce : Code Arr Nat where
  step l h _ a := if l = 21 ∧ a = coords then 7
    else if l = 90 ∧ a = files then (h coords).getD 0
    else if l = 97 ∧ a = files then (h files).getD 0 else 0
  test l _ := l = 20 ∨ l = 89

/-- The runs end, so that the equality is about files. -/
example : (runSep writeOnce 1 (hydroRun false ⟨true, true, false, true, false, false, false⟩
      [fDen, fSie, fUseSie] [nodeVel]) ⟨fun _ => 0, fun _ => 0⟩).map (fun m => m.host files) =
    .done 7 := by
  decide +kernel

/-- A code for a level set run: the fill sets level set 5 over the default 1, the writer outputs the
level set once, then the run stops. -/
def levelOnce : Code Arr Nat where
  step l h d a :=
    if l = 71 ∧ a = levelSet then 1
    else if l = 72 ∧ a = levelSet then 5
    else if l = 85 ∧ a = elemScalars then (d levelSet).getD 0
    else if l = 86 ∧ a = ctl then 1
    else if l = 87 ∧ a = elemScalars then (d elemScalars).getD 0
    else if l = 90 ∧ a = files then (h elemScalars).getD 0
    else if l = 97 ∧ a = files then (h files).getD 0
    else 0
  test l h := l = 89 ∨ l = 84 ∧ h ctl = some 0

/-- The level set filled on the host is never copied to the device: only the default value 1e32 set
on the device is seen by the solver and by the output when the memories are separate
(`common/src/region_fill.cpp:716-720,816-821,850-886`). -/
theorem C132_level_set_fails :
    ∃ (C : Code Arr Nat) (n : Nat) (A : Alloc) (fl fn : List Arr) (s : Arr → Nat),
      A.level = true ∧ fl ⊆ fillFields ∧ fn ⊆ [nodeVel, nodeTemp] ∧
      (runSep C n (levelRun A fl fn) ⟨s, s⟩).map (fun m => m.host files) = .done 1 ∧
      (runOne C n (levelRun A fl fn) s).map (fun t => t files) = .done 5 :=
  ⟨levelOnce, 2, ⟨false, false, false, false, false, false, true⟩, [fLevel], [nodeVel], fun _ => 0,
    rfl, by decide, by decide, by decide +kernel, by decide +kernel⟩

/-- A code with one pass of every loop named in the list; the host variables count the passes. -/
def onePass (loops branches : List Nat) : Code Arr Nat where
  step l _ _ a := if a = ctl ∧ l - 1 ∈ loops then 1 else 0
  test l h := l ∈ branches ∨ l ∈ loops ∧ h ctl = some 0

/-- A strength model that runs on the host is called in a host loop that takes density, internal
energy and volume through the device names of the arrays: with separate memories this is an access
to memory the host cannot reach, while the run with one memory ends
(`Solvers/SGH_solver_3D/src/properties.cpp:331-375`). -/
theorem C132_host_strength_fails :
    ∃ (C : Code Arr Nat) (n : Nat) (A : Alloc) (fl fn : List Arr) (s : Arr → Nat),
      fl ⊆ fillFields ∧ fn ⊆ [nodeVel, nodeTemp] ∧
      runSep C n (hydroRun true A fl fn) ⟨s, s⟩ = .fault ∧
      (runOne C n (hydroRun true A fl fn) s).map (fun t => t files) = .done 0 :=
  ⟨onePass [144, 152, 156] [130], 2, ⟨true, true, false, true, false, false, false⟩,
    [fDen, fSie, fUseSie], [nodeVel], fun _ => 0, by decide, by decide, rfl, by decide +kernel⟩

/-- The power of a moving heat source is looked up by host code with the function of the table meant
for kernels, although one for the host exists: an access to memory the host cannot reach when the
memories are separate (`Solvers/SGTM_solver_3D/src/sgtm_execute.cpp:286`,
`common/include/table.hpp:165-205`). -/
theorem C132_moving_source_fails :
    ∃ (C : Code Arr Nat) (n : Nat) (A : Alloc) (fl fn : List Arr) (s : Arr → Nat),
      fl ⊆ fillFields ∧ fn ⊆ [nodeVel, nodeTemp] ∧
      runSep C n (thermRun true A fl fn) ⟨s, s⟩ = .fault ∧
      (runOne C n (thermRun true A fl fn) s).map (fun t => t files) = .done 0 :=
  ⟨onePass [213, 221, 224] [], 2, ⟨true, true, false, true, true, true, false⟩,
    [fDen, fSie, fUseSie], [nodeTemp], fun _ => 0, by decide, by decide, rfl, by decide +kernel⟩

/-- The motion of the grid of the large strain code, with the copy of the summed array back to the
device: the nodes are those of the run with one memory. -/
theorem C132_grid_motion_copied {V : Type} (C : Code GArr V) (n : Nat) (onHost : Bool)
    (s : GArr → V) :
    (runSep C n (gridMotion onHost true) ⟨s, s⟩).map (fun m => m.host .xnode) =
      (runOne C n (gridMotion onHost true) s).map (fun t => t .xnode) := by
  have hc : ∃ G, check ⟨[.velgrad, .defgrad, .xnode], [.velgrad, .defgrad, .xnode]⟩
      (gridMotion onHost true) = some G ∧ GArr.xnode ∈ G.h := by
    cases onHost
    · exact ⟨_, rfl, by decide +kernel⟩
    · exact ⟨_, rfl, by decide +kernel⟩
  obtain ⟨G, hG, hx⟩ := hc
  rcases C132_sound _ _ _ hG C n ⟨s, s⟩ s (fun _ _ => rfl) (fun _ _ => rfl) with
    ⟨h₁, h₂⟩ | ⟨m', s', h₁, h₂, hh, _⟩
  · rw [h₁, h₂]; rfl
  · rw [h₁, h₂]
    simp [Res.map, hh _ hx]

/-- The code has no such copy: the array summed over the ranks on the host is read by the kernel that
moves the nodes from the device copy, which holds the block of this rank only
(`apps/micromechanics/LS-EVPFFT/src/update_grid_velgrad.cpp:178-243`).  With separate memories the
nodes differ. -/
theorem C132_grid_motion_fails (onHost : Bool) :
    ∃ (C : Code GArr Nat) (s : GArr → Nat),
      (runSep C 1 (gridMotion onHost false) ⟨s, s⟩).map (fun m => m.host .xnode) = .done 3 ∧
      (runOne C 1 (gridMotion onHost false) s).map (fun t => t .xnode) = .done 8 := by
  refine ⟨⟨fun l h d a => if l = 308 then 3 else if l = 309 then (h .workG).getD 0 + 5
    else if l = 310 ∧ a = .xnode then (d .workG).getD 0 else 0, fun _ _ => false⟩, fun _ => 0, ?_⟩
  cases onHost <;> exact ⟨rfl, rfl⟩

/-- With one rank the sum over the ranks leaves the array as it is, and the nodes agree. -/
theorem C132_grid_motion_one_rank {V : Type} (C : Code GArr V) (n : Nat) (onHost : Bool)
    (s : GArr → V) (h1 : ∀ h d v, h GArr.workG = some v → C.step 309 h d .workG = v) :
    (runSep C n (gridMotion onHost false) ⟨s, s⟩).map (fun m => m.host .xnode) =
      (runOne C n (gridMotion onHost false) s).map (fun t => t .xnode) := by
  have h := gridMotion_one C n onHost s h1
  revert h
  cases runSep C n (gridMotion onHost false) ⟨s, s⟩ <;>
    cases runOne C n (gridMotion onHost false) s <;> simp [Rel, Res.map]
  exact fun h => h.1 _ (by simp)

/-- A code as on one rank. -/
example : ∃ C : Code GArr Nat, ∀ h d v, h GArr.workG = some v → C.step 309 h d .workG = v :=
  ⟨⟨fun _ h _ a => (h a).getD 0, fun _ _ => false⟩, fun h d v hv => by simp [hv]⟩

end Fierro
