import Verif.Rounding.CentreProps
import Verif.Rounding.SearchAccuracyProps
import Verif.Geometry.BoxProps

/-!
# C140: the search for haloes covers the circumspheres
-/

namespace Verif.Rounding

open Verif.Predicates Verif.Geometry Verif.Quadtree

/-- The coordinates of a point as a vector. -/
def coords3 (p : P3 ℚ) : Vec 3 ℚ := ![p.x, p.y, p.z]

/-- The exact distance of two points. -/
noncomputable def dist3 (a b : P3 ℚ) : ℝ := Geometry.distance (fun i => (coords3 a i : ℝ)) (fun i => (coords3 b i : ℝ))

theorem dist3_sq (a b : P3 ℚ) : dist3 a b ^ 2 = ((distSq3 a b : ℚ) : ℝ) := by
  unfold dist3 Geometry.distance Geometry.length distSq3 coords3
  rw [Real.sq_sqrt (Finset.sum_nonneg fun i _ => sq_nonneg _), Fin.sum_univ_three]
  simp only [Matrix.cons_val]
  push_cast
  ring

theorem dist3_nonneg (a b : P3 ℚ) : 0 ≤ dist3 a b := Real.sqrt_nonneg _

theorem dist3_le {a b a' b' : P3 ℚ} (h : distSq3 a b ≤ distSq3 a' b') : dist3 a b ≤ dist3 a' b' := by
  have h' : ((distSq3 a b : ℚ) : ℝ) ≤ ((distSq3 a' b' : ℚ) : ℝ) := by exact_mod_cast h
  rw [← dist3_sq, ← dist3_sq] at h'
  exact le_of_sq_le_sq h' (dist3_nonneg _ _)
where
  le_of_sq_le_sq {x y : ℝ} (h : x ^ 2 ≤ y ^ 2) (hy : 0 ≤ y) : x ≤ y := le_of_not_gt fun hc =>
    absurd h (not_le.2 (pow_lt_pow_left₀ hc hy (by norm_num)))

/-- Moving the centre by `δ` in each coordinate. -/
theorem dist3_near {δ : ℚ} {c c' : P3 ℚ} (h : Near3 δ c' c) (q : P3 ℚ) :
    dist3 q c ≤ dist3 q c' + 2 * (δ : ℝ) ∧ dist3 q c' ≤ dist3 q c + 2 * (δ : ℝ) := by
  have h0 : (0 : ℝ) ≤ (δ : ℝ) := by exact_mod_cast (abs_nonneg _).trans h.1
  have hx : ∀ i, |(coords3 c i : ℝ) - (coords3 c' i : ℝ)| ≤ (δ : ℝ) := by
    intro i
    fin_cases i
    · exact_mod_cast h.1
    · exact_mod_cast h.2.1
    · exact_mod_cast h.2.2
  constructor
  · refine length_close h0 fun i => ?_
    have k := abs_add_le ((coords3 q i : ℝ) - coords3 c' i) ((coords3 c' i : ℝ) - coords3 c i)
    rw [sub_add_sub_cancel] at k
    have := hx i
    rw [abs_sub_comm] at this
    linarith
  · refine length_close h0 fun i => ?_
    have k := abs_add_le ((coords3 q i : ℝ) - coords3 c i) ((coords3 c i : ℝ) - coords3 c' i)
    rw [sub_add_sub_cancel] at k
    have := hx i
    linarith

/-- The computed radius is hardly smaller than the distance of the computed centre from the first point. -/
theorem circumradiusF_lower (t : Tetra ℚ) (c : P3 ℚ) :
    dist3 t.p1 c * (1 - 8 / 2 ^ 53) - 4 / 2 ^ 500 ≤ (circumradiusF t c : ℝ) := by
  have hd : circumradiusF t c = lengthF (coords3 (subF c t.p1)) := rfl
  rw [hd]
  have hl := (abs_le.1 (lengthF_err (coords3 (subF c t.p1)) le_rfl)).1
  have hv : dist3 t.p1 c ≤ Geometry.length (fun i => (coords3 (subF c t.p1) i : ℝ)) + 2 * (dist3 t.p1 c / 2 ^ 53 + 1 / 2 ^ 1074) := by
    refine length_close (by have := dist3_nonneg t.p1 c; positivity) fun i => ?_
    have hc : |(coords3 t.p1 i : ℝ) - (coords3 c i : ℝ)| ≤ dist3 t.p1 c := by
      unfold dist3 Geometry.distance Geometry.length
      rw [← Real.sqrt_sq_eq_abs]
      exact Real.sqrt_le_sqrt (Finset.single_le_sum (f := fun i => ((coords3 t.p1 i : ℝ) - (coords3 c i : ℝ)) ^ 2) (fun i _ => sq_nonneg _)
        (Finset.mem_univ i))
    have hs : coords3 (subF c t.p1) i = coords3 c i ⊟ coords3 t.p1 i := by
      fin_cases i <;> rfl
    rw [hs]
    have e := fl_abs_err_real (coords3 c i - coords3 t.p1 i)
    push_cast at e
    change |((coords3 c i ⊟ coords3 t.p1 i : ℚ) : ℝ) - ((coords3 c i : ℝ) - (coords3 t.p1 i : ℝ))| ≤ _ at e
    rw [abs_sub_comm (coords3 t.p1 i : ℝ)] at hc ⊢
    have k := abs_sub_abs_le_abs_sub ((coords3 c i : ℝ) - (coords3 t.p1 i : ℝ)) ((coords3 c i ⊟ coords3 t.p1 i : ℚ) : ℝ)
    rw [abs_sub_comm] at e
    have := div_le_div_of_nonneg_right hc (show (0 : ℝ) ≤ 2 ^ 53 by positivity)
    linarith
  have hn := dist3_nonneg t.p1 c
  generalize dist3 t.p1 c = N at *
  generalize Geometry.length (fun i => (coords3 (subF c t.p1) i : ℝ)) = V at *
  have hη : (1 : ℝ) / 2 ^ 1074 ≤ 1 / 4 * (1 / 2 ^ 500) := by
    rw [show (1 : ℝ) / 4 * (1 / 2 ^ 500) = 1 / 2 ^ 502 by rw [one_div_mul_one_div, show (4 : ℝ) = 2 ^ 2 by norm_num, ← pow_add]]
    exact one_div_le_one_div_of_le (by positivity) (pow_le_pow_right₀ one_le_two (by decide))
  have hη0 : (0 : ℝ) ≤ 1 / 2 ^ 1074 := by positivity
  rw [show (3 : ℝ) / 2 ^ 500 = 3 * (1 / 2 ^ 500) by ring] at hl
  rw [show (4 : ℝ) / 2 ^ 500 = 4 * (1 / 2 ^ 500) by ring]
  have ht0 : (0 : ℝ) ≤ 1 / 2 ^ 500 := by positivity
  generalize (1 : ℝ) / 2 ^ 1074 = η at *
  generalize (1 : ℝ) / 2 ^ 500 = τ at *
  rw [show V * (4 / 2 ^ 53) = V / 2 ^ 51 by ring] at hl
  norm_num at hv hl ⊢
  linarith

theorem maxNecessaryRadiusF_lower (t : Tetra ℚ) (c : P3 ℚ) (h : 1 / 2 ^ 200 ≤ dist3 t.p1 c) :
    10009 / 10000 * dist3 t.p1 c ≤ (maxNecessaryRadiusF t c : ℝ) := by
  have hl := circumradiusF_lower t c
  have ht : (4 : ℝ) / 2 ^ 500 ≤ dist3 t.p1 c / 2 ^ 100 := by
    have : (1 : ℝ) / 2 ^ 200 / 2 ^ 100 ≤ dist3 t.p1 c / 2 ^ 100 := div_le_div_of_nonneg_right h (by positivity)
    refine le_trans ?_ this
    rw [div_div, ← pow_add, show (4 : ℝ) / 2 ^ 500 = 1 / 2 ^ 498 by
      rw [show (2 : ℝ) ^ 500 = 4 * 2 ^ 498 by rw [show (4 : ℝ) = 2 ^ 2 by norm_num, ← pow_add]]
      rw [div_mul_eq_div_div, div_self (by norm_num)]]
    exact one_div_le_one_div_of_le (by positivity) (pow_le_pow_right₀ one_le_two (by decide))
  have hη : (1 : ℝ) / 2 ^ 1074 ≤ dist3 t.p1 c / 2 ^ 100 := by
    have : (1 : ℝ) / 2 ^ 200 / 2 ^ 100 ≤ dist3 t.p1 c / 2 ^ 100 := div_le_div_of_nonneg_right h (by positivity)
    refine le_trans ?_ this
    rw [div_div, ← pow_add]
    exact one_div_le_one_div_of_le (by positivity) (pow_le_pow_right₀ one_le_two (by decide))
  have hk : (10009999 / 10000000 : ℚ) ≤ fl (1001 / 1000) := by decide +kernel
  have e := fl_abs_err_real (circumradiusF t c * fl (1001 / 1000))
  change |((maxNecessaryRadiusF t c : ℚ) : ℝ) - _| ≤ _ at e
  push_cast at e
  have hk' : (10009999 / 10000000 : ℝ) ≤ (fl (1001 / 1000) : ℝ) := by
    have := (Rat.cast_le (K := ℝ)).2 hk
    push_cast at this
    exact this
  have hn : 0 ≤ dist3 t.p1 c := dist3_nonneg _ _
  generalize dist3 t.p1 c = N at *
  generalize (circumradiusF t c : ℝ) = r at *
  generalize (maxNecessaryRadiusF t c : ℝ) = m at *
  generalize (fl (1001 / 1000) : ℝ) = k at *
  generalize (1 : ℝ) / 2 ^ 1074 = η at *
  generalize (4 : ℝ) / 2 ^ 500 = τ at *
  have hr : N * (1 - 1 / 10 ^ 12) ≤ r := by
    norm_num at hl ht ⊢
    linarith
  have hr0 : 0 ≤ r := le_trans (mul_nonneg hn (by norm_num)) hr
  have hp : N * (1 - 1 / 10 ^ 12) * (10009999 / 10000000) ≤ r * k := mul_le_mul hr hk' (by norm_num) hr0
  have hp0 : 0 ≤ r * k := mul_nonneg hr0 (le_trans (by norm_num) hk')
  rw [abs_of_nonneg hp0] at e
  have e1 := (abs_le.1 e).1
  generalize r * k = P at *
  norm_num at e1 hp hη ⊢
  linarith

/-- **C140.**  The radius which the search for haloes may need at most covers the exact circumsphere, with room for the rounding errors
of the search: for a tetrahedron which is not so flat that the error of its centre is larger than a ten thousandth of the radius of the
sphere. -/
theorem search_covers_sphere_f64 {t : Tetra ℚ} {c c' : P3 ℚ} {L R M : ℚ} (hL : 1 / 2 ^ 100 ≤ L) (h2 : Near3 L t.p1 t.p2)
    (h3 : Near3 L t.p1 t.p3) (h4 : Near3 L t.p1 t.p4) (hM : 1 / 2 ^ 200 ≤ M) (hne : orient3 t ≠ 0)
    (hc : circumcentreF t = some c) (hR : Near3 R t.p1 c) (hcM : |c.x| ≤ M ∧ |c.y| ≤ M ∧ |c.z| ≤ M)
    (e2 : distSq3 t.p2 c' = distSq3 t.p1 c') (e3 : distSq3 t.p3 c' = distSq3 t.p1 c') (e4 : distSq3 t.p4 c' = distSq3 t.p1 c')
    (hflat : (10000 * centreShift t L R M) ^ 2 ≤ distSq3 t.p1 c') (q : P3 ℚ) (hq : distSq3 q c' ≤ distSq3 t.p1 c') :
    dist3 q c * (1 + 1 / 2500) ≤ (maxNecessaryRadiusF t c : ℝ) ∧ dist3 t.p1 c' / 2 ≤ (maxNecessaryRadiusF t c : ℝ) := by
  have hn := circumcentre_accurate_f64 hL h2 h3 h4 hM hne hc hR hcM e2 e3 e4
  have hD : 0 < |orient3 t| := abs_pos.2 hne
  have hL0 : 0 < L := lt_of_lt_of_le (by positivity) hL
  have hM0 : 0 < M := lt_of_lt_of_le (by positivity) hM
  have hR0 : 0 ≤ R := (abs_nonneg _).trans hR.1
  have hδ : 1 / 2 ^ 160 ≤ centreShift t L R M := by
    have h6 := orient3_le h2 h3 h4
    have k : L / 2 ^ 53 ≤ centreShift t L R M := by
      unfold centreShift
      rw [le_div_iff₀ (by positivity)]
      have e : L / 2 ^ 53 * (2 ^ 53 * |orient3 t|) = L * |orient3 t| := by field_simp
      rw [e]
      have k1 : L * |orient3 t| ≤ L * (6 * L ^ 3) := mul_le_mul_of_nonneg_left h6 hL0.le
      have k2 : 0 ≤ R * L ^ 3 := by positivity
      have k3 : 0 ≤ L * L ^ 3 := by positivity
      have k4 : 0 ≤ M * L ^ 3 := by positivity
      have e5 : (960 * R + 570 * L + 24 * M) * L ^ 3 = 960 * (R * L ^ 3) + 570 * (L * L ^ 3) + 24 * (M * L ^ 3) := by ring
      have e6 : L * (6 * L ^ 3) = 6 * (L * L ^ 3) := by ring
      rw [e5]
      rw [e6] at k1
      linarith
    refine le_trans ?_ k
    have : (1 / 2 ^ 100 : ℚ) / 2 ^ 53 ≤ L / 2 ^ 53 := div_le_div_of_nonneg_right hL (by positivity)
    refine le_trans ?_ this
    rw [div_div, ← pow_add]
    exact one_div_le_one_div_of_le (by positivity) (pow_le_pow_right₀ one_le_two (by decide))
  have hr : 10000 * (centreShift t L R M : ℝ) ≤ dist3 t.p1 c' := by
    have h : ((10000 * (centreShift t L R M : ℝ))) ^ 2 ≤ dist3 t.p1 c' ^ 2 := by
      rw [dist3_sq]
      exact_mod_cast hflat
    exact dist3_le.le_of_sq_le_sq h (dist3_nonneg _ _)
  have hδ' : (1 : ℝ) / 2 ^ 160 ≤ (centreShift t L R M : ℝ) := by
    have := (Rat.cast_le (K := ℝ)).2 hδ
    push_cast at this
    exact this
  have a := (dist3_near hn q).1
  have b := (dist3_near hn t.p1).2
  have hq' := dist3_le hq
  have hlow : 1 / 2 ^ 200 ≤ dist3 t.p1 c := by
    have : (1 : ℝ) / 2 ^ 200 ≤ 1 / 2 ^ 160 := one_div_le_one_div_of_le (by positivity) (pow_le_pow_right₀ one_le_two (by decide))
    generalize (1 : ℝ) / 2 ^ 200 = η at *
    have h0 : (0 : ℝ) ≤ 1 / 2 ^ 160 := by positivity
    generalize (1 : ℝ) / 2 ^ 160 = η' at *
    linarith
  have hm := maxNecessaryRadiusF_lower t c hlow
  have h0 : (0 : ℝ) < 1 / 2 ^ 160 := by positivity
  generalize (1 : ℝ) / 2 ^ 160 = η' at *
  clear hlow
  constructor <;> linarith

/-- **C140.**  The search itself, with its own rounding errors: a particle of another rank of which the image `k` is inside of the
exact circumsphere is found. -/
theorem halo_search_finds_f64 {t : Tetra ℚ} {c c' : P3 ℚ} {L R M : ℚ} (hL : 1 / 2 ^ 100 ≤ L) (h2 : Near3 L t.p1 t.p2)
    (h3 : Near3 L t.p1 t.p3) (h4 : Near3 L t.p1 t.p4) (hne : orient3 t ≠ 0)
    (hc : circumcentreF t = some c) (hR : Near3 R t.p1 c) (hcM : |c.x| ≤ M ∧ |c.y| ≤ M ∧ |c.z| ≤ M)
    (e2 : distSq3 t.p2 c' = distSq3 t.p1 c') (e3 : distSq3 t.p3 c' = distSq3 t.p1 c') (e4 : distSq3 t.p4 c' = distSq3 t.p1 c')
    (hflat : (10000 * centreShift t L R M) ^ 2 ≤ distSq3 t.p1 c') (hsmall : (M / 2 ^ 30) ^ 2 ≤ distSq3 t.p1 c')
    {P : Type} (pos : P → Vec 3 ℚ) (cfg : Config) (ps : List P) {lo hi : Vec 3 ℚ}
    (hbox : SearchBox M cfg.maxDepth lo hi) (hps : ∀ p ∈ ps, ∀ i, lo i ≤ pos p i ∧ pos p i ≤ hi i) (out : List P)
    (hout : Yields (radiusSearchF pos (fromMinMaxF lo hi) (coords3 c) (maxNecessaryRadiusF t c))
      (TreeIter.new (radiusSearchF pos (fromMinMaxF lo hi) (coords3 c) (maxNecessaryRadiusF t c))
        (QTree.new geomF3 pos cfg ps (fromMinMaxF lo hi))) out)
    (p : P) (hp : p ∈ ps) (k : Fin 3 → ℤ) (hk : ∀ i, k i = -1 ∨ k i = 0 ∨ k i = 1) (q : P3 ℚ)
    (hqk : ∀ i, coords3 q i = pos p i + k i * (hi i - lo i)) (hq : distSq3 q c' ≤ distSq3 t.p1 c') : p ∈ out := by
  obtain ⟨h, hr⟩ := search_covers_sphere_f64 hL h2 h3 h4 hbox.notTiny hne hc hR hcM e2 e3 e4 hflat q hq
  refine (radius_search_accuracy pos cfg ps hbox hps (coords3 c) ?_ (isF64_fl _) out hout p hp).1 ?_
  · intro i
    fin_cases i
    · exact hcM.1
    · exact hcM.2.1
    · exact hcM.2.2
  · have hside : ∀ i, lo i < hi i := by
      intro i
      have := hbox.sides i
      have hM := hbox.pos
      by_contra hn
      push Not at hn
      have a : 0 < M * 2 ^ cfg.maxDepth := by positivity
      have b : 2 ^ 40 * (hi i - lo i) ≤ 0 := mul_nonpos_of_nonneg_of_nonpos (by positivity) (by linarith)
      linarith
    have hi' := (periodic_distance_is_minimal_of_images (realBox lo hi)
      (fun i => by show (lo i : ℝ) < (hi i : ℝ); exact_mod_cast hside i) (fun i => (coords3 c i : ℝ)) (fun i => (pos p i : ℝ))).1 k hk
    have hd : Geometry.distance (fun i => (coords3 c i : ℝ)) (Geometry.image (realBox lo hi) k (fun i => (pos p i : ℝ))) = dist3 q c := by
      unfold dist3
      have : Geometry.image (realBox lo hi) k (fun i => (pos p i : ℝ)) = fun i => (coords3 q i : ℝ) := by
        funext i
        rw [hqk i]
        push_cast
        rfl
      rw [this]
      unfold Geometry.distance Geometry.length
      congr 1
      exact Finset.sum_congr rfl fun i _ => by ring
    rw [hd] at hi'
    have hM' : (M : ℝ) / 2 ^ 30 ≤ dist3 t.p1 c' := by
      have h : ((M : ℝ) / 2 ^ 30) ^ 2 ≤ dist3 t.p1 c' ^ 2 := by
        rw [dist3_sq]
        exact_mod_cast hsmall
      exact dist3_le.le_of_sq_le_sq h (dist3_nonneg _ _)
    have hM0 : (0 : ℝ) < (M : ℝ) := by exact_mod_cast hbox.pos
    show _ < (maxNecessaryRadiusF t c : ℝ) - (M : ℝ) / 2 ^ 48
    have hq0 := dist3_nonneg q c
    generalize (maxNecessaryRadiusF t c : ℝ) = m at *
    generalize dist3 q c = x at *
    generalize dist3 t.p1 c' = r at *
    norm_num at hM' ⊢
    linarith

end Verif.Rounding
