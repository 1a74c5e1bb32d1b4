import Verif.Rounding.CentreSearchProps

/-!
# C140: examples, and a tetrahedron whose circumsphere is not searched
-/

namespace Verif.Rounding

open Verif.Predicates

/-- A tetrahedron with a right angle at its first point, at coordinates which are not exact in binary. -/
def exCorner : Tetra ℚ :=
  ⟨⟨fl (11 / 10), 1, 1⟩, ⟨fl (32 / 10), 1, 1⟩, ⟨fl (11 / 10), fl (23 / 10), 1⟩, ⟨fl (11 / 10), 1, fl (51 / 10)⟩⟩

/-- The exact centre. -/
def exCornerCentre : P3 ℚ := ⟨(fl (11 / 10) + fl (32 / 10)) / 2, (1 + fl (23 / 10)) / 2, (1 + fl (51 / 10)) / 2⟩

/-- The computed centre. -/
def exCornerFound : P3 ℚ := (circumcentreF exCorner).getD ⟨0, 0, 0⟩

theorem exCorner_found : circumcentreFloatF exCorner = some exCornerFound ∧ circumcentreF exCorner = some exCornerFound ∧
    exCornerFound ≠ exCornerCentre := by
  decide +kernel

theorem exCorner_sizes : Near3 (42 / 10) exCorner.p1 exCorner.p2 ∧ Near3 (42 / 10) exCorner.p1 exCorner.p3 ∧
    Near3 (42 / 10) exCorner.p1 exCorner.p4 ∧ Near3 3 exCorner.p1 exCornerFound ∧
    (|exCornerFound.x| ≤ 8 ∧ |exCornerFound.y| ≤ 8 ∧ |exCornerFound.z| ≤ 8) ∧ orient3 exCorner ≠ 0 := by
  unfold Near3
  decide +kernel

theorem exCorner_sphere : distSq3 exCorner.p2 exCornerCentre = distSq3 exCorner.p1 exCornerCentre ∧
    distSq3 exCorner.p3 exCornerCentre = distSq3 exCorner.p1 exCornerCentre ∧
    distSq3 exCorner.p4 exCornerCentre = distSq3 exCorner.p1 exCornerCentre ∧
    (10000 * centreShift exCorner (42 / 10) 3 8) ^ 2 ≤ distSq3 exCorner.p1 exCornerCentre ∧
    (8 / 2 ^ 30) ^ 2 ≤ distSq3 exCorner.p1 exCornerCentre := by
  decide +kernel

/-- The hypotheses of `circumcentre_equidistant_f64`, `circumcentre_accurate_f64` and `search_covers_sphere_f64` are met, by a
tetrahedron whose centre is not computed exactly. -/
example : |distSq3 exCorner.p4 exCornerFound - distSq3 exCorner.p1 exCornerFound| ≤ (320 * 3 + 190 * (42 / 10) + 8 * 8) * (42 / 10) / 2 ^ 53 :=
  circumcentre_equidistant_f64 (by norm_num) exCorner_sizes.1 exCorner_sizes.2.1 exCorner_sizes.2.2.1 (by norm_num) exCorner_found.1
    exCorner_sizes.2.2.2.1 exCorner_sizes.2.2.2.2.1 (Or.inr (Or.inr rfl))

example : Near3 (centreShift exCorner (42 / 10) 3 8) exCornerCentre exCornerFound ∧ centreShift exCorner (42 / 10) 3 8 < 1 / 10 ^ 11 :=
  ⟨circumcentre_accurate_f64 (by norm_num) exCorner_sizes.1 exCorner_sizes.2.1 exCorner_sizes.2.2.1 (by norm_num)
    exCorner_sizes.2.2.2.2.2 exCorner_found.2.1 exCorner_sizes.2.2.2.1 exCorner_sizes.2.2.2.2.1 exCorner_sphere.1 exCorner_sphere.2.1
    exCorner_sphere.2.2.1, by decide +kernel⟩

example : dist3 ⟨2, 2, 5⟩ exCornerFound * (1 + 1 / 2500) ≤ (maxNecessaryRadiusF exCorner exCornerFound : ℝ) :=
  (search_covers_sphere_f64 (by norm_num) exCorner_sizes.1 exCorner_sizes.2.1 exCorner_sizes.2.2.1 (by norm_num)
    exCorner_sizes.2.2.2.2.2 exCorner_found.2.1 exCorner_sizes.2.2.2.1 exCorner_sizes.2.2.2.2.1 exCorner_sphere.1 exCorner_sphere.2.1
    exCorner_sphere.2.2.1 exCorner_sphere.2.2.2.1 ⟨2, 2, 5⟩ (by decide +kernel)).1

open Verif.Quadtree in
/-- The hypotheses of `halo_search_finds_f64` are met: a particle whose image below the box is in the sphere. -/
example (cfg : Config) (hcfg : cfg.maxDepth ≤ 20) (out : List (Geometry.Vec 3 ℚ))
    (hout : Yields (radiusSearchF id (fromMinMaxF (fun _ => 0) (fun _ => 8)) (coords3 exCornerFound) (maxNecessaryRadiusF exCorner exCornerFound))
      (TreeIter.new (radiusSearchF id (fromMinMaxF (fun _ => 0) (fun _ => 8)) (coords3 exCornerFound)
        (maxNecessaryRadiusF exCorner exCornerFound)) (QTree.new geomF3 id cfg [![2, 2, 5], ![2, 15 / 2, 3]]
          (fromMinMaxF (fun _ => 0) (fun _ => 8)))) out) : ![2, 15 / 2, 3] ∈ out :=
  halo_search_finds_f64 (M := 8) (by norm_num) exCorner_sizes.1 exCorner_sizes.2.1 exCorner_sizes.2.2.1
    exCorner_sizes.2.2.2.2.2 exCorner_found.2.1 exCorner_sizes.2.2.2.1 exCorner_sizes.2.2.2.2.1 exCorner_sphere.1 exCorner_sphere.2.1
    exCorner_sphere.2.2.1 exCorner_sphere.2.2.2.1 exCorner_sphere.2.2.2.2 id cfg _
    ⟨by norm_num, by
      have : (8 : ℚ) = 2 ^ 3 := by norm_num
      rw [this]
      exact pow_le_pow_right₀ one_le_two (by decide), fun _ => by unfold IsF64; decide +kernel, fun _ => by norm_num, fun _ => by
      have : (2 : ℚ) ^ cfg.maxDepth ≤ 2 ^ 20 := pow_le_pow_right₀ one_le_two hcfg
      norm_num at this ⊢
      linarith⟩ (by decide +kernel) out hout ![2, 15 / 2, 3] (by simp) ![0, -1, 0] (by decide +kernel) ⟨2, -1 / 2, 3⟩ (by decide +kernel)
    (by decide +kernel)

/-- Four points which are nearly the corners of a parallelogram, as in a lattice which is rotated. -/
def exFlat : Tetra ℚ :=
  ⟨⟨8796093022209 / 8, -1 / 8, 8796093022209 / 8⟩, ⟨23456248059217 / 16, -5864062014817 / 16, 0⟩,
    ⟨-1 / 16, 8796093022209 / 8, 5864062014799 / 16⟩, ⟨5864062014799 / 16, 5864062014801 / 8, -11728124029615 / 16⟩⟩

/-- The exact centre of its circumsphere. -/
def exFlatCentre : P3 ℚ :=
  ⟨10135634071651320392736309833 / 7177611906122384, 1876252872041446349299078343 / 1794402976530596,
    82206955733552708069971250 / 448600744132649⟩

/-- The centre which is computed. -/
def exFlatFound : P3 ℚ := ⟨4956308285295619 / 4096, 6910216819007399 / 8192, 750599937893407 / 4096⟩

/-- A particle in the exact circumsphere. -/
def exFlatMissed : P3 ℚ := ⟨2318968503987, 1952464628060, 183251937961⟩

theorem exFlat_exact : orient3 exFlat ≠ 0 ∧ distSq3 exFlat.p2 exFlatCentre = distSq3 exFlat.p1 exFlatCentre ∧
    distSq3 exFlat.p3 exFlatCentre = distSq3 exFlat.p1 exFlatCentre ∧ distSq3 exFlat.p4 exFlatCentre = distSq3 exFlat.p1 exFlatCentre ∧
    distSq3 exFlatMissed exFlatCentre < distSq3 exFlat.p1 exFlatCentre ∧
    circumcentreF exFlat = some exFlatFound := by
  decide +kernel

/-- **C140** (disagreement).  For a flat tetrahedron the computed sphere does not cover the exact one: the pivots are compared with
`1e-8`, which means nothing for coordinates of this size, so the exact computation is not used.  The particle is in the circumsphere
of the tetrahedron, but is farther from the computed centre than the largest radius searched by more than a fifth. -/
theorem flat_sphere_not_searched : ∃ (t : Tetra ℚ) (c c' q : P3 ℚ), circumcentreF t = some c ∧ orient3 t ≠ 0 ∧
    (distSq3 t.p2 c' = distSq3 t.p1 c' ∧ distSq3 t.p3 c' = distSq3 t.p1 c' ∧ distSq3 t.p4 c' = distSq3 t.p1 c') ∧
    distSq3 q c' < distSq3 t.p1 c' ∧ (6 / 5 * maxNecessaryRadiusF t c) ^ 2 < distSq3 q c := by
  obtain ⟨h1, h2, h3, h4, h5, h6⟩ := exFlat_exact
  refine ⟨exFlat, exFlatFound, exFlatCentre, exFlatMissed, h6, h1, ⟨h2, h3, h4⟩, h5, ?_⟩
  have hr : circumradiusF exFlat exFlatFound ≤ fl 1250317677856 :=
    sqrtF_le (by decide +kernel) (by norm_num) (by decide +kernel)
  have h0 : 0 ≤ circumradiusF exFlat exFlatFound := by
    obtain ⟨lo, hi, h1, h2, h3, h4, h5, h6⟩ := sqrtF_spec (x := dotF (subF exFlatFound exFlat.p1) (subF exFlatFound exFlat.p1)) (by decide +kernel)
    unfold circumradiusF
    rw [← h5]
    exact fl_nonneg h1
  have hm : maxNecessaryRadiusF exFlat exFlatFound ≤ fl (fl 1250317677856 * fl (1001 / 1000)) :=
    fl_mono (mul_le_mul_of_nonneg_right hr (by decide +kernel))
  have hm0 : 0 ≤ maxNecessaryRadiusF exFlat exFlatFound := fl_nonneg (mul_nonneg h0 (by decide +kernel))
  have hk : (6 / 5 * fl (fl 1250317677856 * fl (1001 / 1000))) ^ 2 < distSq3 exFlatMissed exFlatFound := by decide +kernel
  exact lt_of_le_of_lt (pow_le_pow_left₀ (by positivity) (mul_le_mul_of_nonneg_left hm (by norm_num)) 2) hk

end Verif.Rounding
