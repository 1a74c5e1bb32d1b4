import Verif.Rounding.ErrorLemmas

/-!
# C100: the in-sphere test in `f64`
-/

namespace Verif.Rounding

open Verif.Predicates

section Twelve

variable {ax ay az bx bY bz cx cy cz dx dy dz : ℚ}

/-- The minors of two coordinates. -/
private theorem app2 {p q r s : ℚ} (hp : Grid 52 p) (hq : Grid 52 q) (hr : Grid 52 r) (hs : Grid 52 s) :
    App 2 104 (p ⊠ q ⊟ r ⊠ s) (p * q - r * s) (|p| * |q| + |r| * |s|) :=
  ((App.exact hp).fmul (App.exact hq) (by norm_num)).fsub
    ((App.exact hr).fmul (App.exact hs) (by norm_num)) (by norm_num)

private theorem low2 {p q r s : ℚ} (hp : Grid 52 p) (hq : Grid 52 q) (hr : Grid 52 r) (hs : Grid 52 s) :
    Low 2 104 (|p ⊠ q| ⊞ |r ⊠ s|) (|p| * |q| + |r| * |s|) :=
  (Low.abs_fmul hp hq (by norm_num)).fadd (Low.abs_fmul hr hs (by norm_num)) (by norm_num)

/-- The minors of three coordinates. -/
private theorem app3 {p q r P Q R P' Q' R' PP QQ RR : ℚ} (hp : Grid 52 p) (hq : Grid 52 q)
    (hr : Grid 52 r) (hP : App 2 104 P' P PP) (hQ : App 2 104 Q' Q QQ) (hR : App 2 104 R' R RR) :
    App 5 156 (p ⊠ P' ⊞ q ⊠ Q' ⊞ r ⊠ R') (p * P + q * Q + r * R) (|p| * PP + |q| * QQ + |r| * RR) :=
  (((App.exact hp).fmul hP (by norm_num)).fadd ((App.exact hq).fmul hQ (by norm_num))
    (by norm_num)).fadd (((App.exact hr).fmul hR (by norm_num)).mono (by norm_num) le_rfl) (by norm_num)

private theorem app3' {p q r P Q R P' Q' R' PP QQ RR : ℚ} (hp : Grid 52 p) (hq : Grid 52 q)
    (hr : Grid 52 r) (hP : App 2 104 P' P PP) (hQ : App 2 104 Q' Q QQ) (hR : App 2 104 R' R RR) :
    App 5 156 (p ⊠ P' ⊟ q ⊠ Q' ⊞ r ⊠ R') (p * P - q * Q + r * R) (|p| * PP + |q| * QQ + |r| * RR) :=
  (((App.exact hp).fmul hP (by norm_num)).fsub ((App.exact hq).fmul hQ (by norm_num))
    (by norm_num)).fadd (((App.exact hr).fmul hR (by norm_num)).mono (by norm_num) le_rfl) (by norm_num)

private theorem low3 {p q r P' Q' R' PP QQ RR : ℚ} (hp : Grid 52 p) (hq : Grid 52 q)
    (hr : Grid 52 r) (hP : Low 2 104 P' PP) (hQ : Low 2 104 Q' QQ) (hR : Low 2 104 R' RR) :
    Low 5 156 (|p| ⊠ P' ⊞ |q| ⊠ Q' ⊞ |r| ⊠ R') (|p| * PP + |q| * QQ + |r| * RR) :=
  (((Low.exact hp).fmul hP (by norm_num)).fadd ((Low.exact hq).fmul hQ (by norm_num))
    (by norm_num)).fadd (((Low.exact hr).fmul hR (by norm_num)).mono (by norm_num) le_rfl) (by norm_num)

/-- The squared lengths. -/
private theorem appSq {p q r : ℚ} (hp : Grid 52 p) (hq : Grid 52 q) (hr : Grid 52 r) :
    App 3 104 (p ⊠ p ⊞ q ⊠ q ⊞ r ⊠ r) (p * p + q * q + r * r) (|p| * |p| + |q| * |q| + |r| * |r|) :=
  (((App.exact hp).fmul (App.exact hp) (by norm_num)).fadd
    ((App.exact hq).fmul (App.exact hq) (by norm_num)) (by norm_num)).fadd
    (((App.exact hr).fmul (App.exact hr) (by norm_num)).mono (by norm_num) le_rfl) (by norm_num)

private theorem lowSq {p q r : ℚ} (hp : Grid 52 p) (hq : Grid 52 q) (hr : Grid 52 r) :
    Low 3 104 (p ⊠ p ⊞ q ⊠ q ⊞ r ⊠ r) (|p| * |p| + |q| * |q| + |r| * |r|) :=
  ((Low.sq hp (by norm_num)).fadd (Low.sq hq (by norm_num)) (by norm_num)).fadd
    ((Low.sq hr (by norm_num)).mono (by norm_num) le_rfl) (by norm_num)

private theorem app5 {a b c d A B C D a' b' c' d' A' B' C' D' sa sb sc sd SA SB SC SD : ℚ}
    (ha : App 3 104 a' a sa) (hb : App 3 104 b' b sb) (hc : App 3 104 c' c sc) (hd : App 3 104 d' d sd)
    (hA : App 5 156 A' A SA) (hB : App 5 156 B' B SB) (hC : App 5 156 C' C SC) (hD : App 5 156 D' D SD) :
    App 11 260 ((c' ⊠ C' ⊟ d' ⊠ D') ⊞ (a' ⊠ A' ⊟ b' ⊠ B')) ((c * C - d * D) + (a * A - b * B))
      ((sc * SC + sd * SD) + (sa * SA + sb * SB)) :=
  ((hc.fmul hC (by norm_num)).fsub (hd.fmul hD (by norm_num)) (by norm_num)).fadd
    ((ha.fmul hA (by norm_num)).fsub (hb.fmul hB (by norm_num)) (by norm_num)) (by norm_num)

private theorem low5 {a' b' c' d' A' B' C' D' sa sb sc sd SA SB SC SD : ℚ}
    (ha : Low 3 104 a' sa) (hb : Low 3 104 b' sb) (hc : Low 3 104 c' sc) (hd : Low 3 104 d' sd)
    (hA : Low 5 156 A' SA) (hB : Low 5 156 B' SB) (hC : Low 5 156 C' SC) (hD : Low 5 156 D' SD) :
    Low 11 260 ((c' ⊠ C' ⊞ d' ⊠ D') ⊞ (a' ⊠ A' ⊞ b' ⊠ B')) ((sc * SC + sd * SD) + (sa * SA + sb * SB)) :=
  ((hc.fmul hC (by norm_num)).fadd (hd.fmul hD (by norm_num)) (by norm_num)).fadd
    ((ha.fmul hA (by norm_num)).fadd (hb.fmul hB (by norm_num)) (by norm_num)) (by norm_num)

end Twelve

/-- The computed value and the computed size, for the same bound. -/
theorem inSphere_errors (t : Tetra ℚ) (p : P3 ℚ) (h1 : InCube t.p1) (h2 : InCube t.p2)
    (h3 : InCube t.p3) (h4 : InCube t.p4) (hp : InCube p) :
    ∃ S, App 11 260 (inSphereValueF t p) (t.inSphereFloat 1 p).1 S ∧ Low 11 260 (inSphereSizeF t p) S := by
  have gx : ∀ {a : P3 ℚ}, InCube a → Grid 52 (a.x - p.x) := fun h => h.1.grid.sub hp.1.grid
  have gy : ∀ {a : P3 ℚ}, InCube a → Grid 52 (a.y - p.y) := fun h => h.2.1.grid.sub hp.2.1.grid
  have gz : ∀ {a : P3 ℚ}, InCube a → Grid 52 (a.z - p.z) := fun h => h.2.2.grid.sub hp.2.2.grid
  have ab := app2 (gx h1) (gy h2) (gx h2) (gy h1)
  have bc := app2 (gx h2) (gy h3) (gx h3) (gy h2)
  have cd := app2 (gx h3) (gy h4) (gx h4) (gy h3)
  have da := app2 (gx h4) (gy h1) (gx h1) (gy h4)
  have ac := app2 (gx h1) (gy h3) (gx h3) (gy h1)
  have bd := app2 (gx h2) (gy h4) (gx h4) (gy h2)
  have lab := low2 (gx h1) (gy h2) (gx h2) (gy h1)
  have lbc := low2 (gx h2) (gy h3) (gx h3) (gy h2)
  have lcd := low2 (gx h3) (gy h4) (gx h4) (gy h3)
  have lda := low2 (gx h4) (gy h1) (gx h1) (gy h4)
  have lac := low2 (gx h1) (gy h3) (gx h3) (gy h1)
  have lbd := low2 (gx h2) (gy h4) (gx h4) (gy h2)
  have abc := app3' (gz h1) (gz h2) (gz h3) bc ac ab
  have bcd := app3' (gz h2) (gz h3) (gz h4) cd bd bc
  have cda := app3 (gz h3) (gz h4) (gz h1) da ac cd
  have dab := app3 (gz h4) (gz h1) (gz h2) ab bd da
  have labc := low3 (gz h1) (gz h2) (gz h3) lbc lac lab
  have lbcd := low3 (gz h2) (gz h3) (gz h4) lcd lbd lbc
  have lcda := low3 (gz h3) (gz h4) (gz h1) lda lac lcd
  have ldab := low3 (gz h4) (gz h1) (gz h2) lab lbd lda
  have a2 := appSq (gx h1) (gy h1) (gz h1)
  have b2 := appSq (gx h2) (gy h2) (gz h2)
  have c2 := appSq (gx h3) (gy h3) (gz h3)
  have d2 := appSq (gx h4) (gy h4) (gz h4)
  have la2 := lowSq (gx h1) (gy h1) (gz h1)
  have lb2 := lowSq (gx h2) (gy h2) (gz h2)
  have lc2 := lowSq (gx h3) (gy h3) (gz h3)
  have ld2 := lowSq (gx h4) (gy h4) (gz h4)
  have v := app5 a2 b2 c2 d2 bcd cda dab abc
  have l := low5 la2 lb2 lc2 ld2 lbcd lcda ldab labc
  apply Exists.intro
  constructor
  rotate_left
  · unfold inSphereSizeF
    dsimp only
    rw [h1.1.sub hp.1, h1.2.1.sub hp.2.1, h1.2.2.sub hp.2.2, h2.1.sub hp.1, h2.2.1.sub hp.2.1,
      h2.2.2.sub hp.2.2, h3.1.sub hp.1, h3.2.1.sub hp.2.1, h3.2.2.sub hp.2.2, h4.1.sub hp.1,
      h4.2.1.sub hp.2.1, h4.2.2.sub hp.2.2]
    exact l
  · unfold inSphereValueF
    dsimp only
    rw [h1.1.sub hp.1, h1.2.1.sub hp.2.1, h1.2.2.sub hp.2.2, h2.1.sub hp.1, h2.2.1.sub hp.2.1,
      h2.2.2.sub hp.2.2, h3.1.sub hp.1, h3.2.1.sub hp.2.1, h3.2.2.sub hp.2.2, h4.1.sub hp.1,
      h4.2.1.sub hp.2.1, h4.2.2.sub hp.2.2]
    exact v

theorem eps14_bound : (1 + u) ^ 11 - 1 < (1 - u) * (eps14 * (1 - u) ^ 11) := by decide +kernel

theorem eps14_pos : 0 < eps14 := by decide +kernel

theorem eps14_grid : eps14 = (6338253001141147 * 2 ^ 41 : ℤ) * (2 : ℚ) ^ (-((140 : ℕ) : ℤ)) := by
  decide +kernel

/-- Two numbers that differ by less than the size of one of them have the same sign. -/
theorem sign_eq_of_lt {a b : ℚ} (h : |a - b| < |a|) : Sign.of a = Sign.of b := by
  unfold Sign.of
  rcases lt_trichotomy a 0 with ha | ha | ha
  · rw [abs_of_neg ha, abs_lt] at h
    rw [if_pos ha, if_pos (by linarith)]
  · rw [ha] at h
    exact absurd h (by simp)
  · rw [abs_of_pos ha, abs_lt] at h
    rw [if_neg ha.not_gt, if_neg ha.ne', if_neg (by linarith), if_neg (by linarith)]

/-- **C100** (float): if the in-sphere test in `f64` is conclusive, the sign of the value it computes is
the sign of the exact value. -/
theorem inSphere_float_sign (t : Tetra ℚ) (p : P3 ℚ) (h1 : InCube t.p1) (h2 : InCube t.p2)
    (h3 : InCube t.p3) (h4 : InCube t.p4) (hp : InCube p) {sg : Sign}
    (h : trySign (inSphereValueF t p) (eps14 ⊠ inSphereSizeF t p) = some sg) :
    sg = Sign.of (t.inSphereFloat 1 p).1 := by
  obtain ⟨S, hv, hl⟩ := inSphere_errors t p h1 h2 h3 h4 hp
  obtain ⟨x, hx⟩ : ∃ x, x = (t.inSphereFloat 1 p).1 := ⟨_, rfl⟩
  rw [← hx] at hv ⊢
  have he := hv.err
  have hg : Grid 400 (eps14 * inSphereSizeF t p) :=
    Grid.mul (i := 140) (j := 260) ⟨_, eps14_grid⟩ hl.grid
  have hr := hg.fl_rel (by norm_num)
  have hS := hv.nonneg
  have hn := hl.nonneg'
  rw [u_eq, abs_of_nonneg (mul_nonneg eps14_pos.le hn), abs_le] at hr
  have hb : (1 - u) * (eps14 * (1 - u) ^ 11) * S ≤ eps14 ⊠ inSphereSizeF t p := by
    have h5 := mul_le_mul_of_nonneg_left hl.low
      (mul_nonneg (by linarith [u_lt] : 0 ≤ 1 - u) eps14_pos.le)
    unfold fmul
    linarith
  unfold trySign at h
  split at h
  · exact absurd h (by simp)
  · next hge =>
    have hge := not_lt.mp hge
    have hsg : Sign.of (inSphereValueF t p) = sg := by simpa using h
    rw [← hsg]
    rcases hS.lt_or_eq with hpos | h0
    · have hlt : |inSphereValueF t p - x| < |inSphereValueF t p| :=
        he.trans_lt ((mul_lt_mul_of_pos_right eps14_bound hpos).trans_le (hb.trans hge))
      exact sign_eq_of_lt hlt
    · rw [← h0, mul_zero] at he
      rw [sub_eq_zero.mp (abs_nonpos_iff.mp he)]

/-- **C100** (float): if the in-sphere test in `f64` is conclusive, it is true iff the point is strictly
inside the circumsphere of the tetrahedron (of positive orientation). -/
theorem inSphere_float_correct (t : Tetra ℚ) (p : P3 ℚ) (h1 : InCube t.p1) (h2 : InCube t.p2)
    (h3 : InCube t.p3) (h4 : InCube t.p4) (hp : InCube p) (hpos : 0 < orient3 t) (o : P3 ℚ) (rho : ℚ)
    (r1 : distSq3 t.p1 o = rho) (r2 : distSq3 t.p2 o = rho) (r3 : distSq3 t.p3 o = rho)
    (r4 : distSq3 t.p4 o = rho) {b : Bool} (h : inSphereF t p = some b) :
    b = decide (distSq3 p o < rho) := by
  unfold inSphereF at h
  rw [Option.map_eq_some_iff] at h
  obtain ⟨sg, hs, hb⟩ := h
  rw [inSphere_float_sign t p h1 h2 h3 h4 hp hs, float_formula_is_minus_determinant,
    inSphere_identity t.p1 t.p2 t.p3 t.p4 p o rho r1 r2 r3 r4] at hb
  rw [← hb]
  have hpos' : 0 < orient3 ⟨t.p1, t.p2, t.p3, t.p4⟩ := hpos
  congr 1
  rw [eq_iff_iff]
  unfold Sign.of
  constructor
  · intro hs
    split_ifs at hs with g1 g2
    by_contra hcon
    have := mul_nonneg hpos'.le (by linarith : 0 ≤ distSq3 p o - rho)
    exact g2 (le_antisymm (by linarith) (not_lt.mp g1))
  · intro hs
    have := mul_pos hpos' (by linarith : 0 < rho - distSq3 p o)
    rw [if_neg (by linarith), if_neg (by linarith)]

/-! ## The test with rational numbers -/

theorem sq_near {x : ℚ} (hx : Coord x) : |sqF x - x ^ 2| ≤ (2 : ℚ) ^ (-52 : ℤ) := by
  obtain ⟨_, h1, h2⟩ := hx
  have := fl_err (x := x * x) (k := 2) (by
    rw [abs_of_nonneg (by nlinarith)]
    norm_num
    nlinarith) (by norm_num)
  unfold sqF fmul
  rw [pow_two]
  refine this.trans_eq ?_
  norm_num

/-- The error of the last column of the matrix. -/
theorem norm_near {a : P3 ℚ} (ha : InCube a) :
    |normF a - (a.x ^ 2 + a.y ^ 2 + a.z ^ 2)| ≤ 9 * (2 : ℚ) ^ (-52 : ℤ) := by
  obtain ⟨hx, hy, hz⟩ := ha
  have e1 := sq_near hx
  have e2 := sq_near hy
  have e3 := sq_near hz
  have bd : ∀ {x : ℚ}, Coord x → 0 ≤ x ^ 2 ∧ x ^ 2 ≤ 4 := by
    rintro x ⟨_, h1, h2⟩
    constructor <;> nlinarith
  obtain ⟨x0, x4⟩ := bd hx
  obtain ⟨y0, y4⟩ := bd hy
  obtain ⟨z0, z4⟩ := bd hz
  have hs : |sqF a.x + sqF a.y - (a.x ^ 2 + a.y ^ 2)| ≤ 2 * (2 : ℚ) ^ (-52 : ℤ) := by
    rw [abs_le] at e1 e2 ⊢
    constructor <;> linarith
  have r1 := (round_near (k := 3) (by norm_num) (by
    rw [abs_of_nonneg (by linarith)]
    norm_num
    linarith) hs (by norm_num)).2
  have hs2 : |fadd (sqF a.x) (sqF a.y) + sqF a.z - (a.x ^ 2 + a.y ^ 2 + a.z ^ 2)|
      ≤ 5 * (2 : ℚ) ^ (-52 : ℤ) := by
    unfold fadd
    norm_num at r1 e3 ⊢
    rw [abs_le] at r1 e3 ⊢
    constructor <;> linarith
  have r2 := (round_near (k := 4) (by norm_num) (by
    rw [abs_of_nonneg (by linarith)]
    norm_num
    linarith) hs2 (by norm_num)).2
  unfold normF
  refine r2.trans_eq ?_
  norm_num

/-- The determinant with the rounded last column. -/
theorem det_rounded (a b c d e : P3 ℚ) :
    determinant5x5 (inSphereMatrixF a b c d e) - determinant5x5 (inSphereMatrix a b c d e)
      = (normF a - (a.x ^ 2 + a.y ^ 2 + a.z ^ 2)) * orient3 ⟨b, c, d, e⟩
        - (normF b - (b.x ^ 2 + b.y ^ 2 + b.z ^ 2)) * orient3 ⟨a, c, d, e⟩
        + (normF c - (c.x ^ 2 + c.y ^ 2 + c.z ^ 2)) * orient3 ⟨a, b, d, e⟩
        - (normF d - (d.x ^ 2 + d.y ^ 2 + d.z ^ 2)) * orient3 ⟨a, b, c, e⟩
        + (normF e - (e.x ^ 2 + e.y ^ 2 + e.z ^ 2)) * orient3 ⟨a, b, c, d⟩ := by
  unfold inSphereMatrixF inSphereMatrix
  simp only [determinant5x5, determinant4x4, determinant3x3, Matrix.cons_val, orient3_eq]
  ring

/-- Six times the sum of the volumes of the five tetrahedra with vertices among the five points. -/
def volumes (t : Tetra ℚ) (e : P3 ℚ) : ℚ :=
  |orient3 ⟨t.p2, t.p3, t.p4, e⟩| + |orient3 ⟨t.p1, t.p3, t.p4, e⟩| + |orient3 ⟨t.p1, t.p2, t.p4, e⟩|
    + |orient3 ⟨t.p1, t.p2, t.p3, e⟩| + |orient3 ⟨t.p1, t.p2, t.p3, t.p4⟩|

private theorem mul_err {e v : ℚ} (h : |e| ≤ 9 * (2 : ℚ) ^ (-52 : ℤ)) :
    |e * v| ≤ 9 * (2 : ℚ) ^ (-52 : ℤ) * |v| := by
  rw [abs_mul]
  exact mul_le_mul_of_nonneg_right h (abs_nonneg v)

/-- **C100**: the in-sphere test is true iff the point is inside the circumsphere, unless the point is
very close to the circumsphere.  Missing: points close to the sphere, for which the answer can be wrong
(`in_sphere_wrong`), because the last column of the matrix of rational numbers is computed in `f64`. -/
theorem in_sphere_right_partial (t : Tetra ℚ) (e : P3 ℚ) (h1 : InCube t.p1) (h2 : InCube t.p2)
    (h3 : InCube t.p3) (h4 : InCube t.p4) (he : InCube e) (hpos : 0 < orient3 t) (o : P3 ℚ) (rho : ℚ)
    (r1 : distSq3 t.p1 o = rho) (r2 : distSq3 t.p2 o = rho) (r3 : distSq3 t.p3 o = rho)
    (r4 : distSq3 t.p4 o = rho)
    (hfar : 9 / 2 ^ 52 * volumes t e < orient3 t * |distSq3 e o - rho|) :
    inSphere t e = some (decide (distSq3 e o < rho)) := by
  unfold inSphere
  split
  · next b hb => rw [inSphere_float_correct t e h1 h2 h3 h4 he hpos o rho r1 r2 r3 r4 hb]
  · have hd := det_rounded t.p1 t.p2 t.p3 t.p4 e
    have hid := inSphere_identity t.p1 t.p2 t.p3 t.p4 e o rho r1 r2 r3 r4
    have ht : orient3 ⟨t.p1, t.p2, t.p3, t.p4⟩ = orient3 t := rfl
    have b1 := mul_err (v := orient3 ⟨t.p2, t.p3, t.p4, e⟩) (norm_near h1)
    have b2 := mul_err (v := orient3 ⟨t.p1, t.p3, t.p4, e⟩) (norm_near h2)
    have b3 := mul_err (v := orient3 ⟨t.p1, t.p2, t.p4, e⟩) (norm_near h3)
    have b4 := mul_err (v := orient3 ⟨t.p1, t.p2, t.p3, e⟩) (norm_near h4)
    have b5 := mul_err (v := orient3 ⟨t.p1, t.p2, t.p3, t.p4⟩) (norm_near he)
    have hk : (9 : ℚ) / 2 ^ 52 = 9 * (2 : ℚ) ^ (-52 : ℤ) := by norm_num
    have hb : |determinant5x5 (inSphereMatrix t.p1 t.p2 t.p3 t.p4 e)
        - determinant5x5 (inSphereMatrixF t.p1 t.p2 t.p3 t.p4 e)|
        < |determinant5x5 (inSphereMatrix t.p1 t.p2 t.p3 t.p4 e)| := by
      rw [abs_sub_comm, hd]
      refine lt_of_le_of_lt ?_ (hfar.trans_eq ?_)
      · rw [hk]
        unfold volumes
        rw [abs_le] at b1 b2 b3 b4 b5 ⊢
        constructor <;> linarith
      · rw [hid, abs_mul, ht, abs_of_pos hpos]
    rw [← sign_eq_of_lt hb, hid, ht]
    have hne : distSq3 e o - rho ≠ 0 := by
      intro h0
      rw [h0, abs_zero, mul_zero] at hfar
      have : 0 ≤ volumes t e := by unfold volumes; positivity
      linarith [mul_nonneg (by norm_num : (0 : ℚ) ≤ 9 / 2 ^ 52) this]
    unfold Sign.of
    rcases lt_or_gt_of_ne hne with hlt | hgt
    · rw [if_pos (mul_neg_of_pos_of_neg hpos hlt), decide_eq_true (by linarith)]
      rfl
    · have := mul_pos hpos hgt
      rw [if_neg (by linarith), if_neg (by linarith), decide_eq_false (by linarith)]
      rfl

/-- A tetrahedron. -/
def badTetra : Tetra ℚ :=
  ⟨⟨6754860999415850 / 2 ^ 52, 6752364984063473 / 2 ^ 52, 6771592578883068 / 2 ^ 52⟩,
   ⟨6756969045413604 / 2 ^ 52, 6739565439275628 / 2 ^ 52, 6759704820379250 / 2 ^ 52⟩,
   ⟨6743718291332718 / 2 ^ 52, 6746794897731756 / 2 ^ 52, 6747574600056332 / 2 ^ 52⟩,
   ⟨6771820637237387 / 2 ^ 52, 6755582574347821 / 2 ^ 52, 6756822936575069 / 2 ^ 52⟩⟩

/-- A point. -/
def badPoint : P3 ℚ :=
  ⟨6760596716011735 / 2 ^ 52, 6770947133635460 / 2 ^ 52, 6753675158651181 / 2 ^ 52⟩

private theorem bad_facts :
    InCube badTetra.p1 ∧ InCube badTetra.p2 ∧ InCube badTetra.p3 ∧ InCube badTetra.p4 ∧ InCube badPoint
      ∧ 0 < orient3 badTetra ∧ inSphereF badTetra badPoint = none
      ∧ badTetra.circumsphereContainsExact badPoint = some true
      ∧ inSphere badTetra badPoint = some false := by
  decide +kernel

/-- **C100** (negation): for a tetrahedron and a point as `remap_point` returns them, the point is
strictly inside the circumsphere, but the `f64` test is not conclusive and the test with rational
numbers says that the point is outside. -/
theorem in_sphere_wrong : ∃ (t : Tetra ℚ) (e o : P3 ℚ) (rho : ℚ),
    InCube t.p1 ∧ InCube t.p2 ∧ InCube t.p3 ∧ InCube t.p4 ∧ InCube e ∧ 0 < orient3 t
      ∧ distSq3 t.p1 o = rho ∧ distSq3 t.p2 o = rho ∧ distSq3 t.p3 o = rho ∧ distSq3 t.p4 o = rho
      ∧ distSq3 e o < rho ∧ inSphereF t e = none ∧ inSphere t e = some false := by
  obtain ⟨h1, h2, h3, h4, h5, h6, h7, h8, h9⟩ := bad_facts
  obtain ⟨o, ho⟩ := circumcentre_exact_total badTetra h6.ne'
  obtain ⟨e2, e3, e4⟩ := circumcentre_exact_equidistant badTetra o ho
  refine ⟨badTetra, badPoint, o, _, h1, h2, h3, h4, h5, h6, rfl, e2.symm, e3.symm, e4.symm, ?_, h7, h9⟩
  exact (in_sphere_exact_correct badTetra h6 badPoint o _ rfl e2.symm e3.symm e4.symm).1.mp h8

/-- Cases that meet the hypotheses: a conclusive test, and one that is decided with rational numbers. -/
example : let t : Tetra ℚ := ⟨⟨1, 1, 1⟩, ⟨2, 1, 1⟩, ⟨1, 2, 1⟩, ⟨1, 1, 2⟩⟩
    let o : P3 ℚ := ⟨3 / 2, 3 / 2, 3 / 2⟩
    let e : P3 ℚ := ⟨5 / 4, 5 / 4, 5 / 4⟩
    let near : P3 ℚ := ⟨2, 2, 2 - 1 / 2 ^ 47⟩
    (InCube t.p1 ∧ InCube t.p2 ∧ InCube t.p3 ∧ InCube t.p4 ∧ InCube e ∧ InCube near) ∧ 0 < orient3 t
      ∧ (distSq3 t.p1 o = 3 / 4 ∧ distSq3 t.p2 o = 3 / 4 ∧ distSq3 t.p3 o = 3 / 4 ∧ distSq3 t.p4 o = 3 / 4)
      ∧ 9 / 2 ^ 52 * volumes t e < orient3 t * |distSq3 e o - 3 / 4|
      ∧ inSphereF t e = some true
      ∧ inSphereF t near = none
      ∧ inSphere t near = some true := by
  decide +kernel

end Verif.Rounding
