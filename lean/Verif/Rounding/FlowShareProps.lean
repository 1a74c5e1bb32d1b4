import Verif.Rounding.FlowProps
import Verif.Rounding.SearchLemmas

/-!
# C119: the division of a rate among the downwind faces with `f64` rounding, and what rounding can do to the rates
-/

namespace Verif.Rounding

/-! ## The sum of the shares -/

/-- An effective area: not extremely small and not extremely large. -/
def AreaOk (a : ℚ) : Prop := 1 / 2 ^ 200 ≤ a ∧ a ≤ 2 ^ 200

theorem AreaOk.pos {a : ℚ} (h : AreaOk a) : 0 < a := lt_of_lt_of_le (by positivity) h.1

theorem big_of_area {x : ℚ} (h : 1 / 2 ^ 200 ≤ x) : 1 / 2 ^ 1000 ≤ x :=
  le_trans (one_div_le_one_div_of_le (by positivity) (pow_le_pow_right₀ (by norm_num) (by norm_num))) h

/-- The computed total area: the relative error is at most one rounding for every face. -/
theorem total_from (areas : List ℚ) (h : ∀ a ∈ areas, AreaOk a) (t S c d : ℚ) (hS : 0 ≤ S) (ht0 : 0 ≤ t)
    (hd : 0 ≤ d) (hdc : d ≤ 1) (hc : 1 ≤ c) (h1 : S * d ≤ t) (h2 : t ≤ S * c) :
    (S + areas.sum) * (d * (1 - 1 / 2 ^ 53) ^ areas.length) ≤ areas.foldl (· ⊞ ·) t ∧
    areas.foldl (· ⊞ ·) t ≤ (S + areas.sum) * (c * (1 + 1 / 2 ^ 53) ^ areas.length) := by
  induction areas generalizing t S c d with
  | nil => simpa using ⟨h1, h2⟩
  | cons a areas ih =>
    have ha := h a List.mem_cons_self
    have ha0 := ha.pos
    have hb := fl_pos_bounds (x := t + a) (big_of_area (by linarith [ha.1]))
    have e1 : (0 : ℚ) ≤ 1 - 1 / 2 ^ 53 := by norm_num
    have := ih (fun b hb => h b (List.mem_cons_of_mem _ hb)) (t ⊞ a) (S + a) (c * (1 + 1 / 2 ^ 53)) (d * (1 - 1 / 2 ^ 53))
      (by linarith) (fl_nonneg (by linarith)) (mul_nonneg hd e1) (mul_le_one₀ hdc e1 (by norm_num))
      (one_le_mul_of_one_le_of_one_le hc (by norm_num)) (by
        refine le_trans ?_ hb.1
        rw [← mul_assoc]
        refine mul_le_mul_of_nonneg_right ?_ e1
        nlinarith) (by
        refine hb.2.trans ?_
        rw [← mul_assoc]
        refine mul_le_mul_of_nonneg_right ?_ (by norm_num)
        nlinarith)
    rw [List.foldl_cons, List.sum_cons, List.length_cons]
    have r1 : d * (1 - 1 / 2 ^ 53) ^ (areas.length + 1) = d * (1 - 1 / 2 ^ 53) * (1 - 1 / 2 ^ 53 : ℚ) ^ areas.length := by ring
    have r2 : c * (1 + 1 / 2 ^ 53) ^ (areas.length + 1) = c * (1 + 1 / 2 ^ 53) * (1 + 1 / 2 ^ 53 : ℚ) ^ areas.length := by ring
    rw [r1, r2, ← add_assoc]
    exact this

theorem total_bounds (areas : List ℚ) (h : ∀ a ∈ areas, AreaOk a) (hm : areas.length ≤ 2 ^ 20) :
    areas.sum * (1 - areas.length / 2 ^ 53) ≤ totalAreaF areas ∧ totalAreaF areas * (1 - areas.length / 2 ^ 53) ≤ areas.sum := by
  have hS : 0 ≤ areas.sum := List.sum_nonneg fun a ha => (h a ha).pos.le
  obtain ⟨h1, h2⟩ := total_from areas h 0 0 1 1 le_rfl le_rfl zero_le_one le_rfl le_rfl (by norm_num) (by norm_num)
  change _ ≤ totalAreaF areas at h1
  change totalAreaF areas ≤ _ at h2
  rw [zero_add, one_mul] at h1 h2
  generalize totalAreaF areas = T at *
  have hmq : (areas.length : ℚ) ≤ 2 ^ 20 := by exact_mod_cast hm
  have bern : 1 - (areas.length : ℚ) / 2 ^ 53 ≤ (1 - 1 / 2 ^ 53) ^ areas.length := by
    have := one_add_mul_le_pow (R := ℚ) (a := -(1 / 2 ^ 53)) (by norm_num) areas.length
    rw [← sub_eq_add_neg] at this
    refine le_trans (le_of_eq ?_) this
    ring
  have hpos : 0 ≤ 1 - (areas.length : ℚ) / 2 ^ 53 := by
    have : (areas.length : ℚ) / 2 ^ 53 ≤ 2 ^ 20 / 2 ^ 53 := div_le_div_of_nonneg_right hmq (by positivity)
    have : (2 : ℚ) ^ 20 / 2 ^ 53 ≤ 1 := by norm_num
    linarith
  constructor
  · exact (mul_le_mul_of_nonneg_left bern hS).trans h1
  · calc T * (1 - areas.length / 2 ^ 53) ≤ areas.sum * (1 + 1 / 2 ^ 53) ^ areas.length * (1 - areas.length / 2 ^ 53) :=
          mul_le_mul_of_nonneg_right h2 hpos
      _ ≤ areas.sum * (1 + 1 / 2 ^ 53) ^ areas.length * (1 - 1 / 2 ^ 53) ^ areas.length :=
          mul_le_mul_of_nonneg_left bern (by positivity)
      _ = areas.sum * ((1 + 1 / 2 ^ 53) * (1 - 1 / 2 ^ 53)) ^ areas.length := by rw [mul_assoc, ← mul_pow]
      _ ≤ areas.sum * 1 := mul_le_mul_of_nonneg_left (pow_le_one₀ (by norm_num) (by norm_num)) hS
      _ = areas.sum := mul_one _

/-- One face: the computed share and the computed part of a rate. -/
theorem part_bounds {a T delta : ℚ} (ha : AreaOk a) (hT0 : 1 / 2 ^ 200 ≤ T) (hT : T ≤ 2 ^ 222) (hd : 0 ≤ delta) :
    delta * (a / T) * (1 - 1 / 2 ^ 53) ^ 2 - 1 / 2 ^ 1074 ≤ delta ⊠ (a ⊘ T) ∧
    delta ⊠ (a ⊘ T) ≤ delta * (a / T) * (1 + 1 / 2 ^ 53) ^ 2 + 1 / 2 ^ 1074 := by
  have hTp : 0 < T := lt_of_lt_of_le (by positivity) hT0
  have hbig : (1 : ℚ) / 2 ^ 1000 ≤ a / T := by
    calc (1 : ℚ) / 2 ^ 1000 ≤ 1 / 2 ^ 200 / 2 ^ 222 := by
          rw [div_div, ← pow_add]
          exact one_div_le_one_div_of_le (by positivity) (pow_le_pow_right₀ (by norm_num) (by norm_num))
      _ ≤ a / 2 ^ 222 := div_le_div_of_nonneg_right ha.1 (by positivity)
      _ ≤ a / T := div_le_div_of_nonneg_left ha.pos.le hTp hT
  have hs := fl_pos_bounds hbig
  change _ ≤ a ⊘ T ∧ a ⊘ T ≤ _ at hs
  have hr0 : 0 ≤ a / T := (div_pos ha.pos hTp).le
  have hs0 : 0 ≤ a ⊘ T := fl_nonneg hr0
  generalize a ⊘ T = s at *
  have herr := abs_le.1 (fl_abs_err (delta * s))
  rw [abs_of_nonneg (mul_nonneg hd hs0)] at herr
  change _ ≤ delta ⊠ s - _ ∧ delta ⊠ s - _ ≤ _ at herr
  generalize delta ⊠ s = x at *
  generalize (1 : ℚ) / 2 ^ 1074 = η at *
  have l := mul_le_mul_of_nonneg_left hs.1 hd
  have g := mul_le_mul_of_nonneg_left hs.2 hd
  have l' := mul_le_mul_of_nonneg_right l (show (0 : ℚ) ≤ 1 - 1 / 2 ^ 53 by norm_num)
  have g' := mul_le_mul_of_nonneg_right g (show (0 : ℚ) ≤ 1 + 1 / 2 ^ 53 by norm_num)
  constructor
  · have e : delta * (a / T) * (1 - 1 / 2 ^ 53) ^ 2 = delta * (a / T * (1 - 1 / 2 ^ 53)) * (1 - 1 / 2 ^ 53) := by ring
    rw [e]
    linarith
  · have e : delta * (a / T) * (1 + 1 / 2 ^ 53) ^ 2 = delta * (a / T * (1 + 1 / 2 ^ 53)) * (1 + 1 / 2 ^ 53) := by ring
    rw [e]
    linarith

theorem parts_sum (areas : List ℚ) (h : ∀ a ∈ areas, AreaOk a) {T delta : ℚ} (hT0 : 1 / 2 ^ 200 ≤ T) (hT : T ≤ 2 ^ 222) (hd : 0 ≤ delta) :
    delta * (areas.sum / T) * (1 - 1 / 2 ^ 53) ^ 2 - areas.length / 2 ^ 1074 ≤ (areas.map fun a => delta ⊠ (a ⊘ T)).sum ∧
    (areas.map fun a => delta ⊠ (a ⊘ T)).sum ≤ delta * (areas.sum / T) * (1 + 1 / 2 ^ 53) ^ 2 + areas.length / 2 ^ 1074 := by
  induction areas with
  | nil => simp
  | cons a areas ih =>
    have h1 := part_bounds (h a List.mem_cons_self) hT0 hT hd
    have h2 := ih (fun b hb => h b (List.mem_cons_of_mem _ hb))
    rw [List.map_cons, List.sum_cons, List.sum_cons, List.length_cons]
    push_cast
    have e1 : ((areas.length : ℚ) + 1) / 2 ^ 1074 = areas.length / 2 ^ 1074 + 1 / 2 ^ 1074 := by ring
    have e2 : ∀ w : ℚ, delta * ((a + areas.sum) / T) * w = delta * (a / T) * w + delta * (areas.sum / T) * w := by
      intro w
      ring
    rw [e1, e2, e2]
    constructor <;> linarith

/-- The opposite rate. -/
theorem part_neg (delta s : ℚ) : (-delta) ⊠ s = -(delta ⊠ s) := by
  unfold fmul
  rw [neg_mul, fl_neg]

theorem sum_neg_map (l : List ℚ) (g : ℚ → ℚ) : (l.map fun s => -g s).sum = -(l.map g).sum := by
  induction l with
  | nil => simp
  | cons a l ih =>
    rw [List.map_cons, List.map_cons, List.sum_cons, List.sum_cons, ih]
    ring

/-- **C119 (conservation).** The parts of a correction which the downwind faces of a cell get add up to the correction, up to
`m + 3` units of roundoff for `m` faces (and the smallest numbers of `f64`). -/
theorem parts_conserve (areas : List ℚ) (h : ∀ a ∈ areas, AreaOk a) (hne : areas ≠ []) (hm : areas.length ≤ 2 ^ 20) (delta : ℚ) :
    |((sharesF areas).map fun s => delta ⊠ s).sum - delta| ≤ |delta| * ((areas.length + 3) / 2 ^ 53) + areas.length / 2 ^ 1074 := by
  have hpos : ∀ a ∈ areas, 0 < a := fun a ha => (h a ha).pos
  obtain ⟨a0, ha0⟩ := List.exists_mem_of_ne_nil areas hne
  have hS0 : a0 ≤ areas.sum := List.single_le_sum (fun a ha => (hpos a ha).le) a0 ha0
  have hS1 : areas.sum ≤ areas.length * 2 ^ 200 := by
    have := List.sum_le_card_nsmul areas (2 ^ 200) (fun a ha => (h a ha).2)
    rwa [nsmul_eq_mul] at this
  have hmq : (areas.length : ℚ) ≤ 2 ^ 20 := by exact_mod_cast hm
  have hm0 : (0 : ℚ) ≤ areas.length := by positivity
  obtain ⟨t1, t2⟩ := total_bounds areas h hm
  have key : ∀ x : ℚ, 0 ≤ x → |((sharesF areas).map fun s => x ⊠ s).sum - x| ≤ x * ((areas.length + 3) / 2 ^ 53) + areas.length / 2 ^ 1074 := by
    intro x hx
    have hlist : (sharesF areas).map (fun s => x ⊠ s) = areas.map fun a => x ⊠ (a ⊘ totalAreaF areas) := by
      unfold sharesF
      rw [List.map_map]
      rfl
    rw [hlist]
    have hT0 : 1 / 2 ^ 200 ≤ totalAreaF areas := by
      -- the first summand is a lower bound
      have hmono : ∀ (l : List ℚ) (t : ℚ), (∀ a ∈ l, AreaOk a) → 0 ≤ t → t = 0 ∨ 1 / 2 ^ 200 ≤ t → l ≠ [] ∨ 1 / 2 ^ 200 ≤ t →
          1 / 2 ^ 200 ≤ l.foldl (· ⊞ ·) t := by
        intro l
        induction l with
        | nil =>
          intro t _ _ _ h4
          exact h4.resolve_left (fun h => h rfl)
        | cons a l ih =>
          intro t h1 h2 _ _
          have h64 : IsF64 (1 / 2 ^ 200) := by
            have := fl_two_zpow (k := -200) (by norm_num)
            rw [zpow_neg] at this
            rw [one_div]
            exact this
          have ha := (h1 a List.mem_cons_self).1
          have hge : 1 / 2 ^ 200 ≤ t ⊞ a := le_fl h64 (by linarith)
          exact ih (t ⊞ a) (fun b hb => h1 b (List.mem_cons_of_mem _ hb)) (le_trans (by positivity) hge) (Or.inr hge) (Or.inr hge)
      exact hmono areas 0 h le_rfl (Or.inl rfl) (Or.inl hne)
    have hTp : 0 < totalAreaF areas := lt_of_lt_of_le (by positivity) hT0
    generalize totalAreaF areas = T at *
    have hmu : (areas.length : ℚ) / 2 ^ 53 ≤ 2 ^ 20 / 2 ^ 53 := div_le_div_of_nonneg_right hmq (by positivity)
    have hmu1 : (2 : ℚ) ^ 20 / 2 ^ 53 ≤ 1 / 2 := by norm_num
    have hT : T ≤ 2 ^ 222 := by
      have h3 : T * (1 / 2) ≤ T * (1 - areas.length / 2 ^ 53) := mul_le_mul_of_nonneg_left (by linarith) hTp.le
      have h4 : (areas.length : ℚ) * 2 ^ 200 ≤ 2 ^ 20 * 2 ^ 200 := mul_le_mul_of_nonneg_right hmq (by positivity)
      have h5 : (2 : ℚ) ^ 20 * 2 ^ 200 = 2 ^ 220 := by norm_num
      have h6 : (2 : ℚ) ^ 222 = 4 * 2 ^ 220 := by norm_num
      rw [h6]
      linarith
    obtain ⟨p1, p2⟩ := parts_sum areas h hT0 hT hx
    have q1 : 1 - (areas.length : ℚ) / 2 ^ 53 ≤ areas.sum / T := by
      rw [le_div_iff₀ hTp]
      linarith
    have q2 : areas.sum / T * (1 - areas.length / 2 ^ 53) ≤ 1 := by
      rw [div_mul_eq_mul_div, div_le_one hTp]
      exact t1
    generalize areas.sum / T = ρ at *
    generalize (areas.map fun a => x ⊠ (a ⊘ T)).sum = P at *
    have hη : (0 : ℚ) ≤ areas.length / 2 ^ 1074 := by positivity
    generalize (areas.length : ℚ) / 2 ^ 1074 = η at *
    generalize (areas.length : ℚ) = m at *
    have low : 1 - (m + 3) / 2 ^ 53 ≤ ρ * (1 - 1 / 2 ^ 53) ^ 2 := by
      have c : (1 - m / 2 ^ 53) * (1 - 1 / 2 ^ 53) ^ 2 ≤ ρ * (1 - 1 / 2 ^ 53) ^ 2 := mul_le_mul_of_nonneg_right q1 (by norm_num)
      have c2 : 1 - (m + 3) / 2 ^ 53 ≤ (1 - m / 2 ^ 53) * (1 - 1 / 2 ^ 53) ^ 2 := by
        have e : (1 - m / 2 ^ 53) * (1 - 1 / 2 ^ 53 : ℚ) ^ 2 = 1 - 1 * (2 / 2 ^ 53 - 1 / 2 ^ 106) - m / 2 ^ 53 * (1 - 1 / 2 ^ 53) ^ 2 := by ring
        rw [e]
        have c3 : m / 2 ^ 53 * (1 - 1 / 2 ^ 53) ^ 2 ≤ m / 2 ^ 53 * 1 := mul_le_mul_of_nonneg_left (by norm_num) (by positivity)
        rw [add_div]
        linarith
      linarith
    have upp : ρ * (1 + 1 / 2 ^ 53) ^ 2 ≤ 1 + (m + 3) / 2 ^ 53 := by
      have c : (1 + 1 / 2 ^ 53 : ℚ) ^ 2 ≤ (1 + (m + 3) / 2 ^ 53) * (1 - m / 2 ^ 53) := by
        have hmm : m * (m + 3) ≤ 2 ^ 20 * (2 ^ 20 + 3) := mul_le_mul hmq (by linarith) (by linarith) (by positivity)
        have e : (1 + (m + 3) / 2 ^ 53) * (1 - m / 2 ^ 53) = 1 + 3 / 2 ^ 53 - m * (m + 3) / 2 ^ 106 := by ring
        rw [e]
        have : m * (m + 3) / 2 ^ 106 ≤ 2 ^ 20 * (2 ^ 20 + 3) / 2 ^ 106 := div_le_div_of_nonneg_right hmm (by positivity)
        have n1 : (1 + 1 / 2 ^ 53 : ℚ) ^ 2 + 2 ^ 20 * (2 ^ 20 + 3) / 2 ^ 106 ≤ 1 + 3 / 2 ^ 53 := by norm_num
        linarith
      have hρ : 0 ≤ ρ := by
        have : 0 ≤ 1 - m / 2 ^ 53 := by linarith
        linarith
      calc ρ * (1 + 1 / 2 ^ 53) ^ 2 ≤ ρ * ((1 + (m + 3) / 2 ^ 53) * (1 - m / 2 ^ 53)) := mul_le_mul_of_nonneg_left c hρ
        _ = (ρ * (1 - m / 2 ^ 53)) * (1 + (m + 3) / 2 ^ 53) := by ring
        _ ≤ 1 * (1 + (m + 3) / 2 ^ 53) := mul_le_mul_of_nonneg_right q2 (by positivity)
        _ = _ := one_mul _
    have low' := mul_le_mul_of_nonneg_left low hx
    have upp' := mul_le_mul_of_nonneg_left upp hx
    rw [← mul_assoc] at low' upp'
    exact abs_le.2 ⟨by linarith, by linarith⟩
  rcases le_total 0 delta with hd | hd
  · rw [abs_of_nonneg hd]
    exact key delta hd
  · have := key (-delta) (by linarith)
    have e : (sharesF areas).map (fun s => (-delta) ⊠ s) = (sharesF areas).map (fun s => -(delta ⊠ s)) := by
      simp only [part_neg]
    rw [e, sum_neg_map, sub_neg_eq_add, neg_add_eq_sub, abs_sub_comm] at this
    rw [abs_of_nonpos hd]
    exact this

/-! ## What rounding can do -/

/-- Events without any change: the upwind cell stays dark, the cell is solved. -/
def Quiet (e : FlowEvent Unit) : Prop := e = .solve ∨ e = .correct () 0

/-- A rate that is not negative stays as it is as long as nothing changes. -/
theorem quiet_run (g : ℚ) (hg : IsF64 g) (h0 : 0 ≤ g) (es : List (FlowEvent Unit)) (hes : ∀ e ∈ es, Quiet e) :
    (Inflow.mk g (fun _ => 0)).run (fun _ => 1) es = ⟨g, fun _ => 0⟩ := by
  induction es with
  | nil => rfl
  | cons e es ih =>
    have hstep : (Inflow.mk g (fun _ => 0)).step (fun _ => 1) e = ⟨g, fun _ => 0⟩ := by
      rcases hes e List.mem_cons_self with rfl | rfl
      · show Inflow.mk (makePositiveF g) (fun _ => 0) = _
        unfold makePositiveF
        rw [if_neg (by linarith)]
      · show Inflow.mk (g ⊞ correctionF 0 0 1) (Function.update (fun _ => 0) () 0) = _
        have : correctionF 0 0 1 = 0 := by decide +kernel
        rw [this]
        congr 1
        · unfold fadd
          rw [add_zero]
          exact hg
    show ((Inflow.mk g (fun _ => 0)).step (fun _ => 1) e).run (fun _ => 1) es = _
    rw [hstep]
    exact ih (fun e he => hes e (List.mem_cons_of_mem _ he))

/-- **C119 (limit).** Photons out of nothing: the only upwind cell sends all of its photons to a cell, first at the rate `1`, then at
a small rate, then none.  The cell is left with a positive incoming rate, and keeps it for ever, however often the cells are solved
after that with the upwind cell dark. -/
theorem ghost_rate : ∃ (o g : ℚ), IsF64 o ∧ 0 < o ∧ o < 1 ∧ 0 < g ∧
    ∀ es : List (FlowEvent Unit), (∀ e ∈ es, Quiet e) →
      (Inflow.zero).run (fun _ => 1) ([.correct () 1, .solve, .correct () o, .solve, .correct () 0, .solve] ++ es) = ⟨g, fun _ => 0⟩ ∧
      getRateF g 0 0 = g := by
  refine ⟨7 / 2 ^ 55, 1 / 2 ^ 55, by decide +kernel, by norm_num, by norm_num, by norm_num, fun es hes => ⟨?_, by decide +kernel⟩⟩
  have h : (Inflow.zero).run (fun _ => 1) [.correct () 1, .solve, .correct () (7 / 2 ^ 55), .solve, .correct () 0, .solve] =
      (⟨1 / 2 ^ 55, fun _ => 0⟩ : Inflow Unit) := by
    have hr : ((Inflow.zero : Inflow Unit).run (fun _ => 1)
        [.correct () 1, .solve, .correct () (7 / 2 ^ 55), .solve, .correct () 0, .solve]).rate = 1 / 2 ^ 55 := by decide +kernel
    have ho : ((Inflow.zero : Inflow Unit).run (fun _ => 1)
        [.correct () 1, .solve, .correct () (7 / 2 ^ 55), .solve, .correct () 0, .solve]).out = fun _ => 0 := by
      funext j
      cases j
      decide +kernel
    generalize (Inflow.zero : Inflow Unit).run (fun _ => 1)
      [.correct () 1, .solve, .correct () (7 / 2 ^ 55), .solve, .correct () 0, .solve] = f at hr ho
    cases f
    simp only at hr ho
    rw [hr, ho]
  unfold Inflow.run at h ⊢
  rw [List.foldl_append, h]
  exact quiet_run (1 / 2 ^ 55) (by decide +kernel) (by norm_num) es hes

/-- **C119 (limit).** The rate from periodic neighbours is not made positive: with the outgoing rates `1`, `2 ^ -60` and `0` of the
only periodic upwind cell it ends up negative, and so does the total rate of a cell without any other photons. -/
theorem negative_periodic_rate : ∃ o : ℚ, IsF64 o ∧ 0 < o ∧ o < 1 ∧
    ((Inflow.zero : Inflow Unit).run (fun _ => 1) [.correct () 1, .correct () o, .correct () 0]).out () = 0 ∧
    getRateF (makePositiveF 0) 0 ((Inflow.zero : Inflow Unit).run (fun _ => 1) [.correct () 1, .correct () o, .correct () 0]).rate < 0 :=
  ⟨1 / 2 ^ 60, by decide +kernel, by norm_num, by norm_num, by decide +kernel, by decide +kernel⟩

/-- **C119 (limit).** The order in which corrections arrive matters: three upwind cells which send everything to the same cell. -/
theorem order_of_corrections_matters : ∃ es es' : List (FlowEvent (Fin 3)), es.Perm es' ∧
    ((Inflow.zero).run (fun _ => 1) es).out = ((Inflow.zero).run (fun _ => 1) es').out ∧
    ((Inflow.zero).run (fun _ => 1) es).rate ≠ ((Inflow.zero).run (fun _ => 1) es').rate := by
  refine ⟨[.correct 0 1, .correct 1 (1 / 2 ^ 53), .correct 2 (1 / 2 ^ 53)], [.correct 1 (1 / 2 ^ 53), .correct 2 (1 / 2 ^ 53), .correct 0 1],
    ?_, ?_, by decide +kernel⟩
  · exact List.perm_append_comm (l₁ := [FlowEvent.correct 0 1])
  · funext j
    revert j
    decide +kernel

/-- The hypotheses of the drift theorem: two upwind cells with shares a third and a half, several sweeps with changing rates. -/
example : ∃ (share K : Fin 2 → ℚ) (es : List (FlowEvent (Fin 2))), (∀ j, 0 ≤ share j ∧ share j ≤ 1) ∧ (∀ j, 0 ≤ K j) ∧
    1 / 2 ^ 900 ≤ ∑ j, K j ∧ RatesBounded K es ∧ corrections es = 4 ∧
    ((Inflow.zero).run share es).rate ≠ exactRate share ((Inflow.zero).run share es).out := by
  refine ⟨![fl (1 / 3), 1 / 2], ![1, 2], [.correct 0 1, .correct 1 2, .solve, .correct 0 (fl (1 / 10)), .correct 1 0, .solve],
    by decide +kernel, by decide +kernel, ?_, ?_, rfl, by decide +kernel⟩
  · have : ∑ j, (![1, 2] : Fin 2 → ℚ) j = 3 := by decide +kernel
    rw [this]
    exact le_trans (by rw [div_le_one (by positivity)]; exact one_le_pow₀ (by norm_num)) (by norm_num : (1 : ℚ) ≤ 3)
  · intro j o h
    simp only [List.mem_cons, FlowEvent.correct.injEq, reduceCtorEq, List.not_mem_nil, or_false, false_or] at h
    rcases h with ⟨rfl, rfl⟩ | ⟨rfl, rfl⟩ | ⟨rfl, rfl⟩ | ⟨rfl, rfl⟩ <;> decide +kernel

/-- The hypotheses of the theorem on conservation: three faces. -/
example : ∃ areas : List ℚ, (∀ a ∈ areas, AreaOk a) ∧ areas ≠ [] ∧ areas.length ≤ 2 ^ 20 ∧
    ((sharesF areas).map fun s => 1 ⊠ s).sum ≠ 1 := by
  refine ⟨[1, 2, fl (1 / 10)], ?_, by simp, by norm_num, by decide +kernel⟩
  intro a ha
  simp only [List.mem_cons, List.not_mem_nil, or_false] at ha
  rcases ha with rfl | rfl | rfl <;> (unfold AreaOk; decide +kernel)

end Verif.Rounding
