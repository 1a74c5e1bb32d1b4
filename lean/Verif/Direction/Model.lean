import Mathlib.Analysis.SpecialFunctions.Trigonometric.Inverse
import Mathlib.Data.Fin.VecNotation

/-!
# Rotation of the sweep directions: model of `/repo/src/sweep/direction/mod.rs`

`f64` is modelled by exact numbers: reals for the rotation, an arbitrary ordered field for the remapping
of rates.  The pseudo random numbers are inputs.
-/

namespace Verif.Direction

/-- `MVec`, a vector of `f64`. -/
@[ext] structure V3 (K : Type) where
  x : K
  y : K
  z : K
deriving DecidableEq

/-- A 3x3 matrix `[[f64; 3]; 3]`. -/
abbrev M3 (K : Type) := Fin 3 → Fin 3 → K

section
variable {K : Type} [Field K] [LinearOrder K]

/-- `dot` of vectors. -/
def V3.dot (a b : V3 K) : K := a.x * b.x + a.y * b.y + a.z * b.z

/-- `multiply_by_matrix`, lines 150-155. -/
def multiplyByMatrix (v : V3 K) (m : M3 K) : V3 K :=
  { x := v.x * m 0 0 + v.y * m 0 1 + v.z * m 0 2
    y := v.x * m 1 0 + v.y * m 1 1 + v.z * m 1 2
    z := v.x * m 2 0 + v.y * m 2 1 + v.z * m 2 2 }

/-- One step of `Iterator::max_by_key`, which returns the last of several maximal elements. -/
def keepLater (best : Option (K × ℕ)) (e : K × ℕ) : Option (K × ℕ) :=
  match best with
  | none => some e
  | some b => if b.1 ≤ e.1 then some e else some b

/-- The index of `maximally_aligned` in `kernel_f`, lines 177-183; `unwrap` panics on an empty list (`none`). -/
def maximallyAligned (d1 : V3 K) (dirs : List (V3 K)) : Option ℕ :=
  let keyed := (dirs.map (fun d2 => 1 + d1.dot d2)).zipIdx
  (keyed.foldl keepLater none).map (·.2)

/-- `kernel_f`, lines 176-188. -/
def kernelF (d1 : V3 K) (dirs : List (V3 K)) : Option (List K) :=
  (maximallyAligned d1 dirs).map fun k =>
    (List.range dirs.length).map fun i => if i = k then 1 else 0

/-- The body of the inner loop of `remap`, line 202: `values[i] = old_values[j] * kernel[i][j]`.
Indexing out of bounds panics. -/
def remapWrite (old : List K) (kernel : List (List K)) (i j : ℕ) (values : List K) :
    Option (List K) := do
  let o ← old[j]?
  let row ← kernel[i]?
  let k ← row[j]?
  if i < values.length then some (values.set i (o * k)) else none

/-- `remap`, lines 190-205. -/
def remap (values : List K) (oldDirs newDirs : List (V3 K)) : Option (List K) := do
  let n := oldDirs.length
  let kernel ← oldDirs.mapM (fun d => kernelF d newDirs)
  let old := values
  (List.range n).foldlM (fun vs i =>
    (List.range n).foldlM (fun vs j => remapWrite old kernel i j vs) vs) values

end

/-- `get_rotation_matrix`, lines 114-134. -/
noncomputable def getRotationMatrix (axis : V3 ℝ) (angle : ℝ) : M3 ℝ :=
  let x := axis.x
  let y := axis.y
  let z := axis.z
  let cos := Real.cos angle
  let sin := Real.sin angle
  ![![cos + x * x * (1 - cos), x * y * (1 - cos) - z * sin, x * z * (1 - cos) + y * sin],
    ![y * x * (1 - cos) + z * sin, cos + y * y * (1 - cos), y * z * (1 - cos) - x * sin],
    ![z * x * (1 - cos) - y * sin, z * y * (1 - cos) + x * sin, cos + z * z * (1 - cos)]]

/-- The axis of `get_random_rotation_matrix`, lines 137-144. -/
noncomputable def randomAxis (phi rand : ℝ) : V3 ℝ :=
  let theta := Real.arccos (2 * rand - 1)
  { x := Real.cos phi * Real.sin theta
    y := Real.sin phi * Real.sin theta
    z := Real.cos theta }

/-- `get_random_rotation_matrix`, lines 136-148, as a function of the three random numbers. -/
noncomputable def getRandomRotationMatrix (phi rand psi : ℝ) : M3 ℝ :=
  getRotationMatrix (randomAxis phi rand) psi

/-- The direction-resolved rates of a site that are remapped, lines 169-172. -/
structure SiteRates (K : Type) where
  incoming : List K
  outgoing : List K
  periodicSource : List K

/-- `rotate_directions_system`, lines 158-174, as a function of the three random numbers. -/
noncomputable def rotateDirections (phi rand psi : ℝ) (dirs : List (V3 ℝ))
    (sites : List (SiteRates ℝ)) : Option (List (V3 ℝ) × List (SiteRates ℝ)) := do
  let m := getRandomRotationMatrix phi rand psi
  let newDirs := dirs.map (fun d => multiplyByMatrix d m)
  let sites ← sites.mapM fun s => do
    let i ← remap s.incoming dirs newDirs
    let o ← remap s.outgoing dirs newDirs
    let p ← remap s.periodicSource dirs newDirs
    some { incoming := i, outgoing := o, periodicSource := p }
  some (newDirs, sites)

end Verif.Direction
