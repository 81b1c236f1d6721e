import Verif.Model.Contact
import Mathlib.Algebra.Order.Group.Unbundled.Abs
import Mathlib.Algebra.Order.Group.Abs

/-!
# Contact forces

Model of `frictionless_increment`, `distribute_frictionless_force` and `force_resolution` in
`apps/multiphysics/src/Solvers/SGH_solver_3D/src/contact.cpp`.

Simplifications: boundary nodes are addressed by their position in `bdy_nodes`; the corner forces
of a node enter as their sum; only the columns of `node_patch_pairs` that hold a pair are listed, in
the order in which the loops over active nodes and columns visit them; exact arithmetic; `abs` in
contact.cpp:1074 is taken to be the absolute value of a `double`.
-/

namespace Fierro
namespace Contact

/-- A contact pair: the node, the nodes of the patch, and `pair_vars` (0, 1, 3-5, 6, 7). -/
structure Pair (K : Type) (M : ℕ) where
  slave : Fin M
  nodes : Fin 4 → Fin M
  xi : K
  eta : K
  normal : Fin 3 → K
  inc : K
  total : K

/-- `contact_forces`. -/
abbrev Forces (K : Type) (M : ℕ) := Fin M → Fin 3 → K

section forces
variable {K : Type} [Field K] {M : ℕ}

/-- The atomic additions to one node. -/
def addForce (F : Forces K M) (a : Fin M) (v : Fin 3 → K) : Forces K M :=
  Function.update F a fun i => F a i + v i

/-- Force `v` along the normal on the node and its reaction on the nodes of the patch,
contact.cpp:1077-1095 and 1103-1117. -/
def applyForce (p : Pair K M) (v : K) (F : Forces K M) : Forces K M :=
  (List.finRange 4).foldl
    (fun F k => addForce F (p.nodes k) fun i => -v * p.normal i * phi p.xi p.eta k)
    (addForce F p.slave fun i => v * p.normal i)

variable [LinearOrder K]

/-- `distribute_frictionless_force` with `corrector_term` 0, contact.cpp:1055-1119, 2341-2343. -/
def distribute (p : Pair K M) (F : Forces K M) : Pair K M × Forces K M :=
  let v := 1 / 5 * p.inc
  if v + p.total < 0 ∨ 101 / 100 < |p.xi| ∨ 101 / 100 < |p.eta| then
    ({ p with total := 0, inc := 0 }, applyForce p (-p.total) F)
  else ({ p with total := p.total + v }, applyForce p v F)

/-- All pairs one after the other, contact.cpp:2311-2347. -/
def distributeAll : List (Pair K M) → Forces K M → List (Pair K M) × Forces K M
  | [], F => ([], F)
  | p :: ps, F =>
    let r := distribute p F
    let rs := distributeAll ps r.2
    (r.1 :: rs.1, rs.2)

/-- Square of `norm_incs(0)`, contact.cpp:2367-2383. -/
def incNorm (ps : List (Pair K M)) : K :=
  (ps.map fun p => 1 / 5 * p.inc * (1 / 5 * p.inc)).foldl (· + ·) 0

/-- One pass of the loop in `force_resolution`, contact.cpp:2261-2349. `incr` is
`frictionless_increment`, which reads the forces and changes one pair only. -/
def resolveStep (incr : Forces K M → Pair K M → Pair K M) (ps : List (Pair K M)) (F : Forces K M) :
    List (Pair K M) × Forces K M :=
  distributeAll (ps.map (incr F)) F

/-- Outcome of `force_resolution`. -/
structure Resolved (K : Type) (M : ℕ) where
  pairs : List (Pair K M)
  forces : Forces K M
  converged : Bool

/-- `force_resolution`, contact.cpp:2261-2400, with `fuel` passes left. The test
`norm_incs <= 1E-8` is written for the squares. -/
def resolve (incr : Forces K M → Pair K M → Pair K M) :
    ℕ → List (Pair K M) → Forces K M → Resolved K M
  | 0, ps, F => ⟨ps, F, false⟩
  | fuel + 1, ps, F =>
    let r := resolveStep incr ps F
    if incNorm r.1 ≤ (1 / 10 ^ 8) ^ 2 then ⟨r.1, r.2, true⟩ else resolve incr fuel r.1 r.2

/-- `contact_force` after the copy, contact.cpp:2406-2413; `contact_force` was set to zero at
sgh_execute.cpp:444. -/
def scatter {N : ℕ} (bdy : Fin M → Fin N) (F : Forces K M) : Fin N → Fin 3 → K :=
  (List.finRange M).foldl (fun G i => Function.update G (bdy i) (F i)) fun _ _ => 0

end forces

/-! ### The increment of one pair -/

/-- Nodal data read by `frictionless_increment`: position, velocity, mass and sum of the corner
forces of the boundary nodes. -/
structure NodeData (K : Type) (M : ℕ) where
  pos : Fin M → Fin 3 → K
  vel : Fin M → Fin 3 → K
  mass : Fin M → K
  corner : Fin M → Fin 3 → K

section increment
variable {K : Type} [Field K] {M : ℕ}

/-- Predicted position of a node with an additional force `f`, contact.cpp:773-783, 800-807. -/
def predictedWith (nd : NodeData K M) (F : Forces K M) (dt : K) (a : Fin M) (f : Fin 3 → K)
    (i : Fin 3) : K :=
  nd.pos a i + nd.vel a i * dt + 1 / 2 * ((f i + F a i + nd.corner a i) / nd.mass a) * dt * dt

/-- `A`, contact.cpp:768-784: predicted positions of the patch nodes; `w` are the shape functions
weighting the reaction. -/
def patchPos (nd : NodeData K M) (F : Forces K M) (dt : K) (p : Pair K M) (w : Fin 4 → K)
    (i : Fin 3) (k : Fin 4) : K :=
  predictedWith nd F dt (p.nodes k) (fun i => -p.inc * p.normal i * w k) i

/-- `F`, contact.cpp:786-809: predicted position of the node minus predicted point of the patch. -/
def gapVec (nd : NodeData K M) (F : Forces K M) (dt : K) (p : Pair K M) (i : Fin 3) : K :=
  predictedWith nd F dt p.slave (fun i => p.inc * p.normal i) i
    - ∑ k, patchPos nd F dt p (phi p.xi p.eta) i k * phi p.xi p.eta k

/-- `fc_guess`, contact.cpp:739-758. -/
def forceGuess (nd : NodeData K M) (dt : K) (p : Pair K M) : K :=
  let diff : Fin 3 → K := fun i => -nd.pos p.slave i + ∑ k, nd.pos (p.nodes k) i * phi p.xi p.eta k
  2 / (dt * dt * dot p.normal p.normal * (1 / nd.mass p.slave + ∑ k, 1 / nd.mass (p.nodes k)))
    * (diff 0 * p.normal 0 + diff 1 * p.normal 1 + diff 2 * p.normal 2)

/-- `J`, contact.cpp:818-947. `nrm0` is the normal at entry of the function (`neg_normal` is not
updated), `dnXi` and `dnEta` the derivatives of the normal. -/
def gapJac (nd : NodeData K M) (F : Forces K M) (dt : K) (p : Pair K M) (nrm0 dnXi dnEta : Fin 3 → K) :
    Fin 3 → Fin 3 → K :=
  let s := p.xi
  let t := p.eta
  let m := fun k => nd.mass (p.nodes k)
  let A := patchPos nd F dt p (phi s t)
  let half := p.inc * dt * dt / 2
  fun j c => match c with
  | 0 =>
    -(∑ k, A j k * dphiXi s t k)
      - ∑ k, -nrm0 j * ((1 / 2 * dphiXi s t k * p.inc * dt * dt) / m k) * phi s t k
      + p.inc * dt * dt / (2 * nd.mass p.slave) * dnXi j
      + ∑ k, half * (dnXi j * phi s t k / m k) * phi s t k
      + ∑ k, half * (dnEta j * phi s t k / m k) * phi s t k
  | 1 =>
    -(∑ k, A j k * dphiEta s t k)
      - ∑ k, -nrm0 j * ((1 / 2 * dphiEta s t k * p.inc * dt * dt) / m k) * phi s t k
      + p.inc * dt * dt / (2 * nd.mass p.slave) * dnXi j
  | 2 =>
    (1 / 2 * dt * dt * p.normal j) / nd.mass p.slave
      - ∑ k, -nrm0 j * ((1 / 2 * phi s t k * dt * dt) / m k) * phi s t k

end increment

section newton
variable {M : ℕ}

/-- The new normal, contact.cpp:997-1045: at the new patch coordinates, from patch positions
predicted with the new increment but the old normal and shape functions. `none`: zero divided by
zero. -/
noncomputable def nextNormal (nd : NodeData ℝ M) (F : Forces ℝ M) (dt : ℝ) (p : Pair ℝ M)
    (sol : Fin 3 → ℝ) : Option (Fin 3 → ℝ) :=
  unitNormal (patchPos nd F dt { p with inc := sol 2 } (phi p.xi p.eta)) (sol 0) (sol 1)

/-- Positions of the patch nodes. -/
def patchCoords (nd : NodeData ℝ M) (p : Pair ℝ M) (i : Fin 3) (k : Fin 4) : ℝ :=
  nd.pos (p.nodes k) i

open Classical in
/-- The loop of `frictionless_increment`, contact.cpp:764-1047, with `fuel` passes left; `sol` as in
the code. The result tells whether the loop was left as converged; `none`: a normal could not be
computed. -/
noncomputable def incLoop (nd : NodeData ℝ M) (F : Forces ℝ M) (dt : ℝ) (nrm0 : Fin 3 → ℝ) :
    ℕ → Pair ℝ M → (Fin 3 → ℝ) → Option (Pair ℝ M × Bool)
  | 0, p, _ => some (p, false)
  | fuel + 1, p, sol =>
    let G := gapVec nd F dt p
    if G 0 * G 0 + G 1 * G 1 + G 2 * G 2 ≤ 1 / 10 ^ 15 then some (p, true)
    else
      let X := patchCoords nd p
      let J := gapJac nd F dt p nrm0
        (dNormalXi X (mixedDerivative X) p.xi p.eta)
        (dNormalEta X (mixedDerivative X) p.xi p.eta)
      if len (rawNormal X p.xi p.eta) = 0 then none
      else if det J = 0 then some ({ p with inc := 0 }, false)
      else
        let sol' : Fin 3 → ℝ := fun j => sol j - ∑ k, inv J j k * G k
        match nextNormal nd F dt p sol' with
        | none => none
        | some n =>
          incLoop nd F dt nrm0 fuel
            { p with xi := sol' 0, eta := sol' 1, inc := sol' 2, normal := n } sol'

open Classical in
/-- `frictionless_increment`, contact.cpp:663-1052. -/
noncomputable def increment (nd : NodeData ℝ M) (F : Forces ℝ M) (dt : ℝ) (maxIter : ℕ)
    (p : Pair ℝ M) : Option (Pair ℝ M × Bool) :=
  incLoop nd F dt p.normal maxIter p
    ![p.xi, p.eta, if p.inc = 0 then forceGuess nd dt p else p.inc]

end newton

end Contact
end Fierro
