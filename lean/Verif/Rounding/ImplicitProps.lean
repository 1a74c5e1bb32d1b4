import Verif.Rounding.ImplicitModel
import Verif.Rounding.SeriesProps

/-!
# C151: the implicit update of the chemistry in `f64`
-/

namespace Verif.Rounding.Implicit

open Verif.Rounding

/-- What is used of `f64::exp`: it is between zero and one if the argument is not positive. -/
def ExpContract (exp : ℚ → ℚ) : Prop := ∀ x, x ≤ 0 → 0 ≤ exp x ∧ exp x ≤ 1

/-- The cell of a run: a fraction between zero and one and numbers which are not negative; volume and time step are positive. -/
structure Valid (s : CellF) (timestep : ℚ) : Prop where
  x0 : 0 ≤ s.ionizedHydrogenFraction
  x1 : s.ionizedHydrogenFraction ≤ 1
  density : 0 ≤ s.density
  volume : 0 < s.volume
  length : 0 ≤ s.length
  rate : 0 ≤ s.rate
  step : 0 < timestep

/-- The coefficients are not negative; nothing is said about the derivatives. -/
structure NonnegCoefficients (k : CoefficientsF) : Prop where
  recombination : 0 ≤ k.recombination
  collisional : 0 ≤ k.collisional
  excitationCooling : 0 ≤ k.excitationCooling
  ionizationCooling : 0 ≤ k.ionizationCooling
  recombinationCooling : 0 ≤ k.recombinationCooling
  bremsstrahlung : 0 ≤ k.bremsstrahlung
  compton : 0 ≤ k.compton

section
variable {exp : ℚ → ℚ} {k : CoefficientsF} {s : CellF} {timestep : ℚ}

private theorem mul0 {a b : ℚ} (ha : 0 ≤ a) (hb : 0 ≤ b) : 0 ≤ a ⊠ b := fl_nonneg (mul_nonneg ha hb)
private theorem add0 {a b : ℚ} (ha : 0 ≤ a) (hb : 0 ≤ b) : 0 ≤ a ⊞ b := fl_nonneg (add_nonneg ha hb)
private theorem div0 {a b : ℚ} (ha : 0 ≤ a) (hb : 0 ≤ b) : 0 ≤ a ⊘ b := fl_nonneg (div_nonneg ha hb)
private theorem sub0 {a b : ℚ} (h : b ≤ a) : 0 ≤ a ⊟ b := fl_nonneg (sub_nonneg.2 h)
private theorem fl_nonpos {a : ℚ} (h : a ≤ 0) : fl a ≤ 0 := by
  have := fl_mono h
  rwa [fl_zero] at this

private theorem proton0 : (0 : ℚ) ≤ protonMassF := fl_nonneg (by norm_num)

private theorem hydrogen0 (h : Valid s timestep) : 0 ≤ hydrogenDensityF s := div0 h.density proton0

private theorem electron0 (h : Valid s timestep) : 0 ≤ electronDensityF s := mul0 (hydrogen0 h) h.x0

private theorem neutral0 (h : Valid s timestep) : 0 ≤ neutralDensityF s.density s.ionizedHydrogenFraction :=
  mul0 (div0 h.density proton0) (sub0 h.x1)

private theorem mu0 (h : Valid s timestep) : 0 ≤ muF s := div0 zero_le_one (add0 h.x0 zero_le_one)

private theorem atoms0 (he : ExpContract exp) (h : Valid s timestep) : 0 ≤ ionizedAtomsF exp s timestep := by
  have sigma0 : (0 : ℚ) ≤ sigmaF := mul0 (fl_nonneg (by norm_num)) (mul0 (fl_nonneg (by norm_num)) (fl_nonneg (by norm_num)))
  have a : (-neutralDensityF s.density s.ionizedHydrogenFraction ⊠ sigmaF) ⊠ s.length ≤ 0 := by
    refine fl_nonpos (mul_nonpos_of_nonpos_of_nonneg (fl_nonpos (mul_nonpos_of_nonpos_of_nonneg ?_ sigma0)) h.length)
    exact neg_nonpos.2 (neutral0 h)
  exact mul0 (mul0 h.step.le h.rate) (sub0 (he _ a).2)

private theorem atoms_dark (hr : s.rate = 0) : ionizedAtomsF exp s timestep = 0 := by
  unfold ionizedAtomsF newlyIonizedF fmul
  rw [hr, mul_zero, fl_zero, zero_mul, fl_zero]

private theorem quot_some {a b r : ℚ} (h : quotF a b = some r) : b ≠ 0 ∧ r = a ⊘ b := by
  unfold quotF at h
  split_ifs at h with hb
  exact ⟨hb, (Option.some.inj h).symm⟩

private theorem excess0 : (0 : ℚ) ≤ excessEnergyF := by decide +kernel

private theorem heating_eq {q : ℚ} (h : photoheatingF exp s timestep = some q) :
    q = ionizedAtomsF exp s timestep ⊘ s.volume ⊠ excessEnergyF ⊘ timestep := by
  unfold photoheatingF at h
  simp only [Option.bind_eq_bind, Option.bind_eq_some_iff] at h
  obtain ⟨d, h1, h2⟩ := h
  rw [(quot_some h2).2, (quot_some h1).2]

private theorem ionization_eq {q : ℚ} (h : photoionizationF exp s timestep = some q) :
    q = ionizedAtomsF exp s timestep ⊘ (neutralDensityF s.density s.ionizedHydrogenFraction ⊠ s.volume) ⊘ timestep := by
  unfold photoionizationF at h
  simp only [Option.bind_eq_bind, Option.bind_eq_some_iff] at h
  obtain ⟨d, h1, h2⟩ := h
  rw [(quot_some h2).2, (quot_some h1).2]

/-- **C151** (rates): photoheating, photoionization and cooling rates are not negative, and without photons there is neither heating nor
photoionization. -/
theorem rates_nonneg_f64 (he : ExpContract exp) (hk : NonnegCoefficients k) (h : Valid s timestep) :
    (∀ q, photoheatingF exp s timestep = some q → 0 ≤ q ∧ (s.rate = 0 → q = 0)) ∧
    (∀ q, photoionizationF exp s timestep = some q → 0 ≤ q ∧ (s.rate = 0 → q = 0)) ∧
    0 ≤ coolingF k s := by
  have n0 := neutral0 h
  have e0 := electron0 h
  have a0 := atoms0 he h
  refine ⟨fun q hq => ?_, fun q hq => ?_, ?_⟩
  · rw [heating_eq hq]
    refine ⟨div0 (mul0 (div0 a0 h.volume.le) excess0) h.step.le, fun hr => ?_⟩
    rw [atoms_dark hr]
    unfold fdiv fmul
    rw [zero_div, fl_zero, zero_mul, fl_zero, zero_div, fl_zero]
  · rw [ionization_eq hq]
    refine ⟨div0 (div0 a0 (mul0 n0 h.volume.le)) h.step.le, fun hr => ?_⟩
    rw [atoms_dark hr]
    unfold fdiv
    rw [zero_div, fl_zero, zero_div, fl_zero]
  · exact add0 (add0 (add0 (mul0 (mul0 (add0 hk.excitationCooling hk.ionizationCooling) e0) n0)
      (mul0 (mul0 hk.recombinationCooling e0) e0)) (mul0 (mul0 hk.bremsstrahlung e0) e0)) (mul0 hk.compton e0)

private theorem one_le_fl {a : ℚ} (h : 1 ≤ a) : 1 ≤ fl a := by
  have := fl_mono h
  rwa [show fl 1 = 1 by decide +kernel] at this

/-- A number divided by a number of at least one. -/
private theorem damped {a D : ℚ} (ha : IsF64 a) (hD : 1 ≤ D) : |a ⊘ D| ≤ |a| := by
  have D0 : 0 < D := lt_of_lt_of_le one_pos hD
  rcases le_total 0 a with h | h
  · have b : a ⊘ D ≤ a := fl_le ha (div_le_self h hD)
    rw [abs_of_nonneg (div0 h D0.le), abs_of_nonneg h]
    exact b
  · have b : a ≤ a ⊘ D := by
      calc a = fl a := ha.symm
        _ ≤ _ := fl_mono (by
          rw [le_div_iff₀ D0]
          nlinarith)
    have n : a ⊘ D ≤ 0 := fl_nonpos (div_nonpos_of_nonpos_of_nonneg h D0.le)
    rw [abs_of_nonpos n, abs_of_nonpos h]
    exact neg_le_neg b

/-- **C151** (temperature): if the cooling rate does not decrease with the temperature, then for every time step, however long, the
computed change of the temperature is defined and has the sign of heating minus cooling; it is zero if both are equal, and not larger
than that of an explicit step.  Without photons a cell is never heated. -/
theorem temperature_change_f64 (he : ExpContract exp) (hk : NonnegCoefficients k) (h : Valid s timestep)
    (hd : 0 ≤ coolingDerivativeF k s) {c q : ℚ} (hc : heatFactorF s = some c) (hq : photoheatingF exp s timestep = some q) :
    ∃ change, temperatureChangeF exp k s timestep = some change ∧
      (coolingF k s ≤ q → 0 ≤ change) ∧ (q ≤ coolingF k s → change ≤ 0) ∧ (q = coolingF k s → change = 0) ∧
      |change| ≤ |c ⊠ muF s ⊠ (q ⊟ coolingF k s) ⊠ timestep| ∧ (s.rate = 0 → change ≤ 0) := by
  have c0 : 0 ≤ c := by
    rw [(quot_some hc).2]
    exact div0 (mul0 (by decide +kernel) proton0) (mul0 h.density (fl_nonneg (by norm_num)))
  have cm := mul0 c0 (mu0 h)
  have D1 : 1 ≤ 1 ⊟ c ⊠ muF s ⊠ (-coolingDerivativeF k s) ⊠ timestep := by
    refine one_le_fl ?_
    have : c ⊠ muF s ⊠ (-coolingDerivativeF k s) ⊠ timestep ≤ 0 :=
      fl_nonpos (mul_nonpos_of_nonpos_of_nonneg (fl_nonpos (mul_nonpos_of_nonneg_of_nonpos cm (neg_nonpos.2 hd))) h.step.le)
    linarith
  have D0 : 0 < 1 ⊟ c ⊠ muF s ⊠ (-coolingDerivativeF k s) ⊠ timestep := lt_of_lt_of_le one_pos D1
  have e : temperatureChangeF exp k s timestep = some
      ((c ⊠ muF s ⊠ (q ⊟ coolingF k s) ⊠ timestep) ⊘ (1 ⊟ c ⊠ muF s ⊠ (-coolingDerivativeF k s) ⊠ timestep)) := by
    unfold temperatureChangeF
    rw [hc, hq]
    simp only [Option.bind_eq_bind, Option.bind_some, quotF]
    rw [if_neg D0.ne']
  have up : coolingF k s ≤ q →
      0 ≤ (c ⊠ muF s ⊠ (q ⊟ coolingF k s) ⊠ timestep) ⊘ (1 ⊟ c ⊠ muF s ⊠ (-coolingDerivativeF k s) ⊠ timestep) :=
    fun hle => div0 (mul0 (mul0 cm (sub0 hle)) h.step.le) D0.le
  have down : q ≤ coolingF k s →
      (c ⊠ muF s ⊠ (q ⊟ coolingF k s) ⊠ timestep) ⊘ (1 ⊟ c ⊠ muF s ⊠ (-coolingDerivativeF k s) ⊠ timestep) ≤ 0 :=
    fun hle => fl_nonpos (div_nonpos_of_nonpos_of_nonneg (fl_nonpos (mul_nonpos_of_nonpos_of_nonneg
      (fl_nonpos (mul_nonpos_of_nonneg_of_nonpos cm (fl_nonpos (sub_nonpos.2 hle)))) h.step.le)) D0.le)
  refine ⟨_, e, up, down, fun heq => le_antisymm (down heq.le) (up heq.ge), damped (isF64_fl _) D1, fun hr => ?_⟩
  obtain ⟨r1, _, r3⟩ := rates_nonneg_f64 (exp := exp) he hk h
  exact down (((r1 q hq).2 hr).trans_le r3)

/-- **C151** (ionized fraction): let `c` and `d` be the computed rates of ionization per neutral and recombination per ionized atom.  If
the denominator of the implicit step is positive, then the computed change is defined, is not negative if the gain exceeds the loss by a
unit of roundoff, and not positive if the loss exceeds the gain by a unit of roundoff.  If the computed Jacobian is not positive, this
holds for every time step, and the change is not larger than that of an explicit step. -/
theorem fraction_change_f64 (he : ExpContract exp) (hk : NonnegCoefficients k) (h : Valid s timestep)
    {q : ℚ} (hq : photoionizationF exp s timestep = some q)
    (hD : 0 < 1 ⊟ jacobianF k s q ⊠ timestep ∨ jacobianF k s q ≤ 0 ∨ jacobianF k s q * timestep ≤ 1 / 2) :
    let c := creationF k s q
    let d := destructionF k s
    let x := s.ionizedHydrogenFraction
    ∃ change, fractionChangeF exp k s timestep = some change ∧
      (x * (c + d) * (1 + 1 / 2 ^ 53) ≤ c → 0 ≤ change) ∧
      (c ≤ x * (c + d) * (1 - 1 / 2 ^ 53) → change ≤ 0) ∧
      (jacobianF k s q ≤ 0 → |change| ≤ |timestep ⊠ (c ⊟ x ⊠ (c ⊞ d))|) ∧
      (s.rate = 0 → k.collisional = 0 → change ≤ 0) := by
  intro c d x
  have q0 := (rates_nonneg_f64 (exp := exp) he hk h).2.1 q hq
  have e0 := electron0 h
  have c0 : 0 ≤ c := add0 (mul0 hk.collisional e0) q0.1
  have d0 : 0 ≤ d := mul0 hk.recombination e0
  have cf : IsF64 c := isF64_fl _
  have df : IsF64 d := isF64_fl _
  have big : jacobianF k s q ≤ 0 → 1 ≤ 1 ⊟ jacobianF k s q ⊠ timestep := fun hj => by
    refine one_le_fl ?_
    have := fl_nonpos (mul_nonpos_of_nonpos_of_nonneg hj h.step.le)
    unfold fmul
    linarith
  have D0 : 0 < 1 ⊟ jacobianF k s q ⊠ timestep := by
    rcases hD with hD | hD | hD
    · exact hD
    · exact lt_of_lt_of_le one_pos (big hD)
    · have a : jacobianF k s q ⊠ timestep ≤ 1 / 2 := fl_le (by unfold IsF64; decide +kernel) hD
      have b : (1 : ℚ) / 2 ≤ 1 ⊟ jacobianF k s q ⊠ timestep := by
        calc (1 : ℚ) / 2 = fl (1 / 2) := by decide +kernel
          _ ≤ _ := fl_mono (by linarith)
      exact lt_of_lt_of_le (by norm_num) b
  have e : fractionChangeF exp k s timestep =
      some ((timestep ⊠ (c ⊟ x ⊠ (c ⊞ d))) ⊘ (1 ⊟ jacobianF k s q ⊠ timestep)) := by
    unfold fractionChangeF
    rw [hq]
    simp only [Option.bind_eq_bind, Option.bind_some, quotF]
    rw [if_neg D0.ne']
  have sum := abs_le.1 (fadd_rel cf df)
  rw [abs_of_nonneg (add_nonneg c0 d0)] at sum
  have up : x ⊠ (c ⊞ d) ≤ c → 0 ≤ (timestep ⊠ (c ⊟ x ⊠ (c ⊞ d))) ⊘ (1 ⊟ jacobianF k s q ⊠ timestep) :=
    fun hle => div0 (mul0 h.step.le (sub0 hle)) D0.le
  have down : c ≤ x ⊠ (c ⊞ d) → (timestep ⊠ (c ⊟ x ⊠ (c ⊞ d))) ⊘ (1 ⊟ jacobianF k s q ⊠ timestep) ≤ 0 :=
    fun hle => fl_nonpos (div_nonpos_of_nonpos_of_nonneg (fl_nonpos (mul_nonpos_of_nonneg_of_nonpos h.step.le
      (fl_nonpos (sub_nonpos.2 hle)))) D0.le)
  refine ⟨_, e, fun hle => up (fl_le cf ?_), fun hle => down ?_, fun hj => damped (isF64_fl _) (big hj), fun hr hb => down ?_⟩
  · refine le_trans ?_ hle
    rw [mul_assoc]
    exact mul_le_mul_of_nonneg_left (by linarith [sum.2]) h.x0
  · have : c ≤ x * (c ⊞ d) := by
      refine le_trans hle ?_
      rw [mul_assoc]
      exact mul_le_mul_of_nonneg_left (by linarith [sum.1]) h.x0
    calc c = fl c := cf.symm
      _ ≤ _ := fl_mono this
  · have : c = 0 := by
      change k.collisional ⊠ electronDensityF s ⊞ q = 0
      rw [hb, q0.2 hr]
      unfold fadd fmul
      rw [zero_mul, fl_zero, add_zero, fl_zero]
    rw [this]
    exact mul0 h.x0 (add0 le_rfl d0)

/-- **C151** (cold gas): where collisions do not ionize and recombination gets slower with the temperature, the computed Jacobian is
not positive, at most minus the rates by which the fraction changes, and the step is stable: for every time step, however long, the
computed change has the sign of gain minus loss and is not larger than that of an explicit step. -/
theorem cold_gas_stable_f64 (he : ExpContract exp) (hk : NonnegCoefficients k) (h : Valid s timestep) (hT : 0 ≤ s.temperature)
    (h1 : k.collisional = 0) (h2 : k.collisionalDerivative = 0) (h3 : k.recombinationDerivative ≤ 0)
    {q : ℚ} (hq : photoionizationF exp s timestep = some q) :
    let c := creationF k s q
    let d := destructionF k s
    let x := s.ionizedHydrogenFraction
    jacobianF k s q ≤ -(c ⊞ d) ∧
    ∃ change, fractionChangeF exp k s timestep = some change ∧
      (x * (c + d) * (1 + 1 / 2 ^ 53) ≤ c → 0 ≤ change) ∧
      (c ≤ x * (c + d) * (1 - 1 / 2 ^ 53) → change ≤ 0) ∧
      |change| ≤ |timestep ⊠ (c ⊟ x ⊠ (c ⊞ d))| ∧ (s.rate = 0 → change ≤ 0) := by
  intro c d x
  have q0 := (rates_nonneg_f64 (exp := exp) he hk h).2.1 q hq
  have e0 := electron0 h
  have c0 : 0 ≤ c := add0 (mul0 hk.collisional e0) q0.1
  have d0 : 0 ≤ d := mul0 hk.recombination e0
  have z : ∀ a : ℚ, a ⊠ 0 = 0 := fun a => by
    unfold fmul
    rw [mul_zero, fl_zero]
  have z' : (0 : ℚ) ⊟ 0 = 0 := by decide +kernel
  have T0 : 0 ≤ electronDensityF s ⊠ s.temperature ⊠ muF s ⊠ 1 := mul0 (mul0 (mul0 e0 hT) (mu0 h)) zero_le_one
  have r0 : electronDensityF s ⊠ s.temperature ⊠ muF s ⊠ 1 ⊠ k.recombinationDerivative ≤ 0 :=
    fl_nonpos (mul_nonpos_of_nonneg_of_nonpos T0 h3)
  have dd : 0 ≤ hydrogenDensityF s ⊠ k.recombination ⊟ electronDensityF s ⊠ s.temperature ⊠ muF s ⊠ 1 ⊠ k.recombinationDerivative :=
    sub0 (r0.trans (mul0 (hydrogen0 h) hk.recombination))
  have j : jacobianF k s q ≤ -(c ⊞ d) := by
    unfold jacobianF
    dsimp only
    rw [h1, h2, z, z, z']
    have y := mul0 h.x0 (add0 (a := 0) le_rfl dd)
    have w : (0 : ℚ) ⊟ (c ⊞ d) = -(c ⊞ d) := by
      unfold fsub fadd
      rw [zero_sub, fl_neg, fl_fl]
    have w' : IsF64 (-(c ⊞ d)) := by
      unfold IsF64 fadd
      rw [fl_neg, fl_fl]
    change (0 : ℚ) ⊟ (c ⊞ d) ⊟ _ ≤ _
    rw [w]
    exact fl_le w' (by linarith)
  refine ⟨j, ?_⟩
  have j0 : jacobianF k s q ≤ 0 := j.trans (neg_nonpos.2 (add0 c0 d0))
  obtain ⟨change, a1, a2, a3, a4, a5⟩ := fraction_change_f64 he hk h hq (Or.inr (Or.inl j0))
  exact ⟨change, a1, a2, a3, a4 j0, fun hr => a5 hr h1⟩

/-- **C151** (no overshoot): under these conditions recombination never removes more ions than there are, up to six units of roundoff,
for every time step, however long. -/
theorem recombination_no_overshoot_f64 (he : ExpContract exp) (hk : NonnegCoefficients k) (h : Valid s timestep)
    (hT : 0 ≤ s.temperature) (h1 : k.collisional = 0) (h2 : k.collisionalDerivative = 0) (h3 : k.recombinationDerivative ≤ 0)
    {q : ℚ} (hq : photoionizationF exp s timestep = some q) (hx : 1 / 2 ^ 40 ≤ s.ionizedHydrogenFraction)
    (ht : 1 / 2 ^ 60 ≤ timestep) (hs : 1 / 2 ^ 800 ≤ creationF k s q ⊞ destructionF k s) :
    ∃ change, fractionChangeF exp k s timestep = some change ∧
      -(s.ionizedHydrogenFraction * (1 + 6 / 2 ^ 53)) ≤ change := by
  obtain ⟨j, _⟩ := cold_gas_stable_f64 he hk h hT h1 h2 h3 hq
  have q0 := (rates_nonneg_f64 (exp := exp) he hk h).2.1 q hq
  have c0 : 0 ≤ creationF k s q := add0 (mul0 hk.collisional (electron0 h)) q0.1
  have x0 := h.x0
  have t0 := h.step
  have e : ∀ D, 1 ⊟ jacobianF k s q ⊠ timestep = D → D ≠ 0 → fractionChangeF exp k s timestep = some
      ((timestep ⊠ (creationF k s q ⊟ s.ionizedHydrogenFraction ⊠ (creationF k s q ⊞ destructionF k s))) ⊘ D) := by
    intro D hD hD0
    unfold fractionChangeF
    rw [hq]
    simp only [Option.bind_eq_bind, Option.bind_some, quotF]
    rw [hD, if_neg hD0]
  generalize creationF k s q ⊞ destructionF k s = r at j hs e
  generalize creationF k s q = c at c0 e
  generalize s.ionizedHydrogenFraction = x at hx x0 e ⊢
  generalize hDe : 1 ⊟ jacobianF k s q ⊠ timestep = D at e
  generalize jacobianF k s q = jac at j hDe
  have r0 : 0 < r := lt_of_lt_of_le (by positivity) hs
  have x0' : 0 < x := lt_of_lt_of_le (by positivity) hx
  have low : ∀ {a b : ℚ} {m n : ℕ}, 1 / 2 ^ m ≤ a → 1 / 2 ^ n ≤ b → m + n ≤ 1000 → (1 : ℚ) / 2 ^ 1000 ≤ a * b := by
    intro a b m n ha hb hmn
    calc (1 : ℚ) / 2 ^ 1000 ≤ 1 / 2 ^ (m + n) := one_div_le_one_div_of_le (by positivity) (pow_le_pow_right₀ one_le_two hmn)
      _ = 1 / 2 ^ m * (1 / 2 ^ n) := by rw [div_mul_div_comm, one_mul, ← pow_add]
      _ ≤ a * b := mul_le_mul ha hb (by positivity) (le_trans (by positivity) ha)
  have b1 := fl_pos_bounds (low hx hs (by decide))
  have b2 := fl_pos_bounds (low hs ht (by decide))
  -- the denominator
  have jt : jac ⊠ timestep ≤ -(r ⊠ timestep) := by
    unfold fmul
    rw [← fl_neg]
    refine fl_mono ?_
    nlinarith
  have one : (1 : ℚ) / 2 ^ 1000 ≤ 1 + r ⊠ timestep := by
    have := fl_nonneg (mul_pos r0 t0).le
    refine le_trans (?_ : (1 : ℚ) / 2 ^ 1000 ≤ 1) (by unfold fmul; linarith)
    rw [div_le_one (by positivity)]
    exact one_le_pow₀ one_le_two
  have b3 := fl_pos_bounds one
  have u0 : (0 : ℚ) < 1 - 1 / 2 ^ 53 := by norm_num
  have rt := mul_pos r0 t0
  have dlow : (1 + r * timestep) * (1 - 1 / 2 ^ 53) ^ 2 ≤ D := by
    have a : fl (1 + r ⊠ timestep) ≤ D := by
      rw [← hDe]
      exact fl_mono (by linarith)
    refine le_trans ?_ (b3.1.trans a)
    have : (1 + r * timestep) * (1 - 1 / 2 ^ 53) ≤ 1 + r ⊠ timestep := by
      have := b2.1
      unfold fmul
      generalize fl (r * timestep) = g at this ⊢
      norm_num at this ⊢
      linarith
    calc (1 + r * timestep) * (1 - 1 / 2 ^ 53) ^ 2 = (1 + r * timestep) * (1 - 1 / 2 ^ 53) * (1 - 1 / 2 ^ 53) := by ring
      _ ≤ _ := mul_le_mul_of_nonneg_right this u0.le
  have D0 : 0 < D := lt_of_lt_of_le (mul_pos (by linarith) (pow_pos u0 2)) dlow
  refine ⟨_, e D rfl D0.ne', ?_⟩
  -- the numerator
  have xr : x ⊠ r ≤ x * r * (1 + 1 / 2 ^ 53) := b1.2
  have net : -(x ⊠ r) ≤ c ⊟ x ⊠ r := by
    have f : IsF64 (-(x ⊠ r)) := by
      unfold IsF64 fmul
      rw [fl_neg, fl_fl]
    calc -(x ⊠ r) = fl (-(x ⊠ r)) := f.symm
      _ ≤ _ := fl_mono (by linarith)
  have xrlow : (1 : ℚ) / 2 ^ 900 ≤ x * r * (1 + 1 / 2 ^ 53) := by
    calc (1 : ℚ) / 2 ^ 900 ≤ 1 / 2 ^ (40 + 800) := one_div_le_one_div_of_le (by positivity) (pow_le_pow_right₀ one_le_two (by decide))
      _ = 1 / 2 ^ 40 * (1 / 2 ^ 800) := by rw [div_mul_div_comm, one_mul, ← pow_add]
      _ ≤ x * r := mul_le_mul hx hs (by positivity) x0
      _ ≤ _ := le_mul_of_one_le_right (mul_pos x0' r0).le (by norm_num)
  have b4 := fl_pos_bounds (low ht xrlow (by decide))
  have num : -(timestep * (x * r * (1 + 1 / 2 ^ 53)) * (1 + 1 / 2 ^ 53)) ≤ timestep ⊠ (c ⊟ x ⊠ r) := by
    refine le_trans (neg_le_neg b4.2) ?_
    rw [← fl_neg]
    refine fl_mono ?_
    rw [← mul_neg]
    exact mul_le_mul_of_nonneg_left (by linarith) t0.le
  -- the quotient
  have y0 : (1 : ℚ) / 2 ^ 1000 ≤ x * (1 + 4 / 2 ^ 53 + 1 / 2 ^ 100) := by
    refine low hx (n := 0) ?_ (by decide)
    norm_num
  have b5 := fl_pos_bounds y0
  have quot : -(x * (1 + 4 / 2 ^ 53 + 1 / 2 ^ 100)) ≤ timestep ⊠ (c ⊟ x ⊠ r) / D := by
    rw [le_div_iff₀ D0]
    refine le_trans ?_ num
    rw [neg_mul]
    refine neg_le_neg ?_
    calc timestep * (x * r * (1 + 1 / 2 ^ 53)) * (1 + 1 / 2 ^ 53) = x * (r * timestep) * (1 + 1 / 2 ^ 53) ^ 2 := by ring
      _ ≤ x * (1 + r * timestep) * ((1 + 4 / 2 ^ 53 + 1 / 2 ^ 100) * (1 - 1 / 2 ^ 53) ^ 2) := by
        refine mul_le_mul (mul_le_mul_of_nonneg_left (by linarith) x0) (by norm_num) (by norm_num) ?_
        exact mul_nonneg x0 (by linarith)
      _ = x * (1 + 4 / 2 ^ 53 + 1 / 2 ^ 100) * ((1 + r * timestep) * (1 - 1 / 2 ^ 53) ^ 2) := by ring
      _ ≤ _ := mul_le_mul_of_nonneg_left dlow (mul_nonneg x0 (by norm_num))
  refine le_trans (le_trans (neg_le_neg ?_) (le_of_eq (fl_neg _).symm)) (fl_mono quot)
  refine b5.2.trans ?_
  rw [mul_assoc]
  exact mul_le_mul_of_nonneg_left (by norm_num) x0

end

/-! ### The hypotheses are satisfiable -/

/-- A function with the contract of `exp`. -/
def exExp (x : ℚ) : ℚ := fl (1 / (1 - x))

example : ExpContract exExp := fun x hx => by
  have a : (0 : ℚ) < 1 - x := by linarith
  refine ⟨fl_nonneg (div_nonneg zero_le_one a.le), fl_le (by unfold IsF64; decide +kernel) ?_⟩
  rw [div_le_one a]
  linarith

/-- A cell with one atom per volume, of which a quarter is ionized. -/
def exCell (rate : ℚ) : CellF := ⟨1 / 4, 100, protonMassF, 1, 1, rate⟩

/-- Coefficients, of which those of ionization and cooling are given. -/
def exCoefficients (collisional cooling : ℚ) : CoefficientsF := ⟨1, 0, collisional, 0, cooling, 1, 0, 0, 0, 0, 0, 0, 0, 0⟩

example (rate : ℚ) (hr : 0 ≤ rate) : Valid (exCell rate) 1 where
  x0 := by norm_num [exCell]
  x1 := by norm_num [exCell]
  density := by
    change (0 : ℚ) ≤ protonMassF
    decide +kernel
  volume := by norm_num [exCell]
  length := by norm_num [exCell]
  rate := hr
  step := one_pos

example : NonnegCoefficients (exCoefficients 100 (1 / 2)) := by
  constructor <;> norm_num [exCoefficients]

example : 0 ≤ coolingDerivativeF (exCoefficients 100 (1 / 2)) (exCell 8) ∧ (heatFactorF (exCell 8)).isSome ∧
    (photoheatingF exExp (exCell 8) 1).isSome ∧ (photoionizationF exExp (exCell 8) 1).isSome := by
  decide +kernel

example : 1 / 2 ^ 40 ≤ (exCell 0).ionizedHydrogenFraction ∧
    photoionizationF exExp (exCell 0) (2 ^ 100) = some 0 ∧
    1 / 2 ^ 800 ≤ creationF (exCoefficients 0 0) (exCell 0) 0 ⊞ destructionF (exCoefficients 0 0) (exCell 0) := by
  decide +kernel

/-- A bright cell which is ionized, and a dark one which recombines and cools. -/
example : (∃ c ∈ fractionChangeF exExp (exCoefficients 0 0) { exCell 8 with length := 2 ^ 80 } (1 / 2 ^ 20), 0 < c) ∧
    (∃ c ∈ fractionChangeF exExp (exCoefficients 0 0) (exCell 0) 1, c < 0) ∧
    (∃ c ∈ temperatureChangeF exExp (exCoefficients 0 1) (exCell 0) 1, c < 0) := by
  decide +kernel

/-- The time step has to be short if the Jacobian is positive: a cell with strong collisional ionization, in which gain exceeds loss, is
recombined by a long step.  (Such a step is repeated with half of the time, because the change is large, see C41.) -/
theorem long_step_moves_backwards_f64 : ∃ s k q, NonnegCoefficients k ∧ Valid s 1 ∧ photoionizationF exExp s 1 = some q ∧
    s.ionizedHydrogenFraction * (creationF k s q + destructionF k s) * (1 + 1 / 2 ^ 53) ≤ creationF k s q ∧
    1 ⊟ jacobianF k s q ⊠ 1 < 0 ∧ ∃ change ∈ fractionChangeF exExp k s 1, change < 0 := by
  refine ⟨exCell 0, exCoefficients 100 0, 0, by constructor <;> norm_num [exCoefficients], ?_, by decide +kernel, by decide +kernel,
    by decide +kernel, by decide +kernel⟩
  refine ⟨by norm_num [exCell], by norm_num [exCell], ?_, by norm_num [exCell], by norm_num [exCell], le_rfl, one_pos⟩
  change (0 : ℚ) ≤ protonMassF
  decide +kernel

end Verif.Rounding.Implicit
