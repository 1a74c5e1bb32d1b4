import Verif.Rounding.DepositModel
import Verif.Rounding.NearestProps
import Verif.Rounding.SeriesProps
import Verif.Domain.SourcesProps
import Mathlib.Algebra.Order.Ring.Pow

/-!
# C149: photon sources in `f64`
-/

namespace Verif.Rounding.Deposit

open Verif.Rounding Verif.Rounding.Nearest
open Verif.Geometry (Vec)
open Verif.Sources (Source)
open Verif.Remap (Nearest)

/-- Specification: the sources in the order of the list which are owned by rank `r` and for which the tree of this rank, made of
`positions`, returns the index `i`. -/
def arrivingF (nearest : Nearest ℚ) (owner : Vec 3 ℚ → ℕ) (all : List (Source (Vec 3 ℚ) ℚ)) (r : ℕ) (positions : List (Vec 3 ℚ))
    (i : ℕ) : List (Source (Vec 3 ℚ) ℚ) :=
  all.filter fun s => owner s.pos = r ∧ (nearest positions s.pos).2 = i

private theorem step_f64 {nearest : Nearest ℚ} (hn : NearestContractF nearest) (owner : Vec 3 ℚ → ℕ) (r : ℕ)
    (positions : List (Vec 3 ℚ)) (hne : positions ≠ []) (all : List (Source (Vec 3 ℚ) ℚ)) (terms : List ℚ)
    (hlen : terms.length = positions.length) :
    ∃ terms', all.foldlM (depositStepF nearest owner r positions) terms = some terms' ∧ terms'.length = terms.length ∧
      ∀ i t, terms[i]? = some t →
        terms'[i]? = some (((arrivingF nearest owner all r positions i).map Source.rate).foldl (· ⊞ ·) t) := by
  induction all generalizing terms with
  | nil => exact ⟨terms, rfl, rfl, fun i t h => h⟩
  | cons s rest ih =>
    rw [List.foldlM_cons]
    unfold depositStepF
    by_cases ho : owner s.pos = r
    · rw [if_pos ho]
      obtain ⟨x, hx, _⟩ := hn positions s.pos hne
      have hjl : (nearest positions s.pos).2 < terms.length := by
        rw [hlen]
        exact (List.getElem?_eq_some_iff.mp hx).1
      generalize hj : (nearest positions s.pos).2 = j at hjl
      have hjt : terms[j]? = some terms[j] := List.getElem?_eq_getElem hjl
      dsimp only
      rw [hjt]
      obtain ⟨t', h1, h2, h3⟩ := ih (terms.set j (terms[j] ⊞ s.rate)) (by simpa using hlen)
      refine ⟨t', h1, by simpa using h2, fun i t ht => ?_⟩
      by_cases hij : j = i
      · subst hij
        rw [hjt, Option.some.injEq] at ht
        subst ht
        rw [h3 j (terms[j] ⊞ s.rate) (by rw [List.getElem?_set_self hjl])]
        unfold arrivingF
        rw [List.filter_cons_of_pos (by simp [ho, hj])]
        rfl
      · rw [h3 i t (by rw [List.getElem?_set_ne hij]; exact ht)]
        unfold arrivingF
        rw [List.filter_cons_of_neg]
        simp only [hj, decide_eq_true_eq]
        exact fun h => hij h.2
    · rw [if_neg ho]
      obtain ⟨t', h1, h2, h3⟩ := ih terms hlen
      refine ⟨t', h1, h2, fun i t ht => ?_⟩
      rw [h3 i t ht]
      unfold arrivingF
      rw [List.filter_cons_of_neg]
      simp [ho]

/-- **C149** (deposition): if every rank has a cell no rank panics, and the source term of cell `i` of rank `r` is the one it had
before plus, one after the other in the order of the list of all sources, the rates of exactly those sources which rank `r` owns and
whose nearest cell of this rank is `i`. -/
theorem sources_deposited_f64 {nearest : Nearest ℚ} (hn : NearestContractF nearest) (owner : Vec 3 ℚ → ℕ)
    (sources : List (List (Source (Vec 3 ℚ) ℚ))) (world : List (List (Vec 3 ℚ) × List ℚ)) (hne : ∀ w ∈ world, w.1 ≠ [])
    (hlen : ∀ w ∈ world, w.2.length = w.1.length) :
    ∃ result, depositF nearest owner sources world = some result ∧ result.length = world.length ∧
      ∀ (r : ℕ) (w : List (Vec 3 ℚ) × List ℚ), world[r]? = some w →
        ∃ terms, result[r]? = some terms ∧ terms.length = w.2.length ∧ ∀ (i : ℕ) (t : ℚ), w.2[i]? = some t →
          terms[i]? = some (((sources.flatten.filter fun s => owner s.pos = r ∧ (nearest w.1 s.pos).2 = i).map
            Source.rate).foldl (· ⊞ ·) t) := by
  have hex : ∀ r, ∃ terms' : List ℚ, ∀ w, world[r]? = some w →
      depositRankF nearest owner sources.flatten r w = some terms' ∧ terms'.length = w.2.length ∧
      ∀ i t, w.2[i]? = some t →
        terms'[i]? = some (((arrivingF nearest owner sources.flatten r w.1 i).map Source.rate).foldl (· ⊞ ·) t) := by
    intro r
    cases hw : world[r]? with
    | none => exact ⟨[], by simp⟩
    | some w =>
      have hm := List.mem_of_getElem? hw
      obtain ⟨t', h⟩ := step_f64 hn owner r w.1 (hne w hm) sources.flatten w.2 (hlen w hm)
      refine ⟨t', fun w' hw' => ?_⟩
      rw [Option.some.injEq] at hw'
      subst hw'
      exact h
  choose res hres using hex
  have hmap : ∀ (l : List ((List (Vec 3 ℚ) × List ℚ) × ℕ)), (∀ x ∈ l, world[x.2]? = some x.1) →
      l.mapM (fun w => depositRankF nearest owner sources.flatten w.2 w.1) = some (l.map fun w => res w.2) := by
    intro l
    induction l with
    | nil => exact fun _ => rfl
    | cons x xs ih =>
      intro h
      rw [List.mapM_cons, (hres x.2 x.1 (h x (by simp))).1, ih fun y hy => h y (by simp [hy])]
      rfl
  have hd : depositF nearest owner sources world = some ((List.range world.length).map res) := by
    unfold depositF
    rw [hmap _ fun x hx => List.mem_zipIdx_iff_getElem?.mp hx]
    congr 1
    apply List.ext_getElem (by simp)
    intro i h1 h2
    simp
  refine ⟨_, hd, by simp, fun r w hw => ?_⟩
  have hr := (List.getElem?_eq_some_iff.mp hw).1
  exact ⟨res r, by rw [List.getElem?_map, List.getElem?_range hr]; rfl, (hres r w hw).2⟩

/-! ### The terms of cells -/

private theorem fold_accurate (t : ℚ) (rates : List ℚ) (ht : IsF64 t) (ht0 : 0 ≤ t) (h : ∀ a ∈ rates, IsF64 a ∧ 0 ≤ a) :
    (t + rates.sum) * (1 - 1 / 2 ^ 53) ^ rates.length ≤ rates.foldl (· ⊞ ·) t ∧
    rates.foldl (· ⊞ ·) t ≤ (t + rates.sum) * (1 + 1 / 2 ^ 53) ^ rates.length ∧
    ∀ a ∈ rates, a ≤ rates.foldl (· ⊞ ·) t := by
  have k := sum_from rates h t t 1 1 ht ht0 zero_le_one le_rfl le_rfl (by rw [mul_one]) (by rw [mul_one])
  rw [one_mul, one_mul] at k
  refine ⟨k.1, k.2, ?_⟩
  clear k
  have grow : ∀ (l : List ℚ) (t : ℚ), IsF64 t → (∀ a ∈ l, 0 ≤ a) → t ≤ l.foldl (· ⊞ ·) t := by
    intro l
    induction l with
    | nil => exact fun t _ _ => le_rfl
    | cons b l ih =>
      intro t ht hl
      have : t ≤ t ⊞ b := by
        calc t = fl t := ht.symm
          _ ≤ _ := fl_mono (le_add_of_nonneg_right (hl b List.mem_cons_self))
      exact this.trans (ih _ (isF64_fl _) fun a ha => hl a (List.mem_cons_of_mem _ ha))
  induction rates generalizing t with
  | nil => exact fun a ha => absurd ha (by simp)
  | cons b l ih =>
    intro a ha
    have hb := h b List.mem_cons_self
    have h' : ∀ a ∈ l, IsF64 a ∧ 0 ≤ a := fun a ha => h a (List.mem_cons_of_mem _ ha)
    rcases List.mem_cons.1 ha with rfl | ha
    · have : a ≤ t ⊞ a := by
        calc a = fl a := hb.1.symm
          _ ≤ _ := fl_mono (le_add_of_nonneg_left ht0)
      exact this.trans (grow l _ (isF64_fl _) fun a ha => (h' a ha).2)
    · exact ih _ (isF64_fl _) (fl_nonneg (add_nonneg ht0 hb.2)) h' a ha

/-- **C149** (accuracy): if `n` sources arrive in a cell its term differs from the sum of the old term and of their rates by `n` units
of roundoff.  No source is lost: the term is not smaller than the old one and the largest of the rates.  A cell in which no source
arrives keeps its term, and a cell without a source in which a single one arrives gets exactly its rate. -/
theorem terms_accurate_f64 {nearest : Nearest ℚ} (hn : NearestContractF nearest) (owner : Vec 3 ℚ → ℕ)
    (sources : List (List (Source (Vec 3 ℚ) ℚ))) (world : List (List (Vec 3 ℚ) × List ℚ)) (hne : ∀ w ∈ world, w.1 ≠ [])
    (hlen : ∀ w ∈ world, w.2.length = w.1.length) (hrates : ∀ s ∈ sources.flatten, IsF64 s.rate ∧ 0 ≤ s.rate)
    {result : List (List ℚ)} (h : depositF nearest owner sources world = some result)
    {r i : ℕ} {w : List (Vec 3 ℚ) × List ℚ} {t : ℚ} (hw : world[r]? = some w) (ht : w.2[i]? = some t) (hf : IsF64 t) (h0 : 0 ≤ t) :
    let arriving := sources.flatten.filter fun s => owner s.pos = r ∧ (nearest w.1 s.pos).2 = i
    let n := arriving.length
    ∃ terms x, result[r]? = some terms ∧ terms[i]? = some x ∧
      (t + (arriving.map Source.rate).sum) * (1 - 1 / 2 ^ 53) ^ n ≤ x ∧
      x ≤ (t + (arriving.map Source.rate).sum) * (1 + 1 / 2 ^ 53) ^ n ∧
      t ≤ x ∧ (∀ s ∈ arriving, s.rate ≤ x) ∧
      (arriving = [] → x = t) ∧ (∀ s, arriving = [s] → t = 0 → x = s.rate) := by
  intro arriving n
  obtain ⟨res, e, _, k⟩ := sources_deposited_f64 hn owner sources world hne hlen
  rw [h, Option.some.injEq] at e
  subst e
  obtain ⟨terms, a1, _, a2⟩ := k r w hw
  have hall : ∀ s ∈ arriving, IsF64 s.rate ∧ 0 ≤ s.rate := fun s hs => hrates s (List.mem_of_mem_filter hs)
  have hl : ∀ a ∈ arriving.map Source.rate, IsF64 a ∧ 0 ≤ a := by
    intro a ha
    obtain ⟨s, hs, rfl⟩ := List.mem_map.1 ha
    exact hall s hs
  obtain ⟨t1, t2, t3⟩ := fold_accurate t _ hf h0 hl
  rw [List.length_map] at t1 t2
  refine ⟨terms, _, a1, a2 i t ht, t1, t2, ?_, fun s hs => t3 _ (List.mem_map.2 ⟨s, hs, rfl⟩), ?_, ?_⟩
  · have := (fold_accurate 0 (t :: arriving.map Source.rate) fl_zero le_rfl (by
      intro a ha
      rcases List.mem_cons.1 ha with rfl | ha
      · exact ⟨hf, h0⟩
      · exact hl a ha)).2.2 t List.mem_cons_self
    have z : (0 : ℚ) ⊞ t = t := by
      change fl (0 + t) = t
      rw [zero_add]
      exact hf
    rw [List.foldl_cons, z] at this
    exact this
  · intro h
    change (arriving.map Source.rate).foldl (· ⊞ ·) t = t
    rw [h]
    rfl
  · intro s h hz
    change (arriving.map Source.rate).foldl (· ⊞ ·) t = s.rate
    have hs := hall s (by rw [h]; exact List.mem_cons_self)
    rw [h, hz]
    change fl (0 + s.rate) = s.rate
    rw [zero_add]
    exact hs.1

/-- **C149** (number of ranks): the terms are added in the order of the list of all sources on every rank.  If the same sources
arrive in a cell in a run with another number of ranks or another distribution of the cells, its term is the same bit by bit. -/
theorem term_independent_of_ranks_f64 {nearest : Nearest ℚ} (hn : NearestContractF nearest) (owner owner' : Vec 3 ℚ → ℕ)
    (sources sources' : List (List (Source (Vec 3 ℚ) ℚ))) (hs : sources.flatten = sources'.flatten)
    (world world' : List (List (Vec 3 ℚ) × List ℚ))
    (hne : ∀ w ∈ world, w.1 ≠ []) (hlen : ∀ w ∈ world, w.2.length = w.1.length)
    (hne' : ∀ w ∈ world', w.1 ≠ []) (hlen' : ∀ w ∈ world', w.2.length = w.1.length)
    {result result' : List (List ℚ)} (h : depositF nearest owner sources world = some result)
    (h' : depositF nearest owner' sources' world' = some result')
    {r i r' i' : ℕ} {w w' : List (Vec 3 ℚ) × List ℚ} {t : ℚ} (hw : world[r]? = some w) (hw' : world'[r']? = some w')
    (ht : w.2[i]? = some t) (ht' : w'.2[i']? = some t)
    (same : ∀ s ∈ sources.flatten,
      (owner s.pos = r ∧ (nearest w.1 s.pos).2 = i) ↔ (owner' s.pos = r' ∧ (nearest w'.1 s.pos).2 = i')) :
    ∃ terms terms' x, result[r]? = some terms ∧ result'[r']? = some terms' ∧ terms[i]? = some x ∧ terms'[i']? = some x := by
  obtain ⟨res, e, _, k⟩ := sources_deposited_f64 hn owner sources world hne hlen
  obtain ⟨res', e', _, k'⟩ := sources_deposited_f64 hn owner' sources' world' hne' hlen'
  rw [h, Option.some.injEq] at e
  rw [h', Option.some.injEq] at e'
  subst e e'
  obtain ⟨terms, a1, _, a2⟩ := k r w hw
  obtain ⟨terms', b1, _, b2⟩ := k' r' w' hw'
  refine ⟨terms, terms', _, a1, b1, a2 i t ht, ?_⟩
  rw [b2 i' t ht', ← hs]
  have : (sources.flatten.filter fun s => owner' s.pos = r' ∧ (nearest w'.1 s.pos).2 = i') =
      sources.flatten.filter fun s => owner s.pos = r ∧ (nearest w.1 s.pos).2 = i := by
    apply List.filter_congr
    intro s hs
    rw [decide_eq_decide]
    exact (same s hs).symm
  rw [this]

/-- **C149** (nearest cell): the cell in which a source arrives is the nearest one of its rank up to thirteen rounding errors of the
squared distance. -/
theorem nearly_nearest_cell_f64 {nearest : Nearest ℚ} (hn : NearestContractF nearest) {positions : List (Vec 3 ℚ)}
    (hne : positions ≠ []) (q : Vec 3 ℚ) (hs : ∀ x ∈ positions, Separated x q) :
    ∃ x, positions[(nearest positions q).2]? = some x ∧
      ∀ y ∈ positions, Verif.Remap.sqDist x q ≤ (1 + 13 / 2 ^ 53) * Verif.Remap.sqDist y q := by
  obtain ⟨x, hx, _, hmin⟩ := hn positions q hne
  exact ⟨x, hx, fun y hy => nearly_nearest (hs x (List.mem_of_getElem? hx)) (hs y hy) (hmin y hy)⟩

/-! ### The luminosity on the grid -/

private theorem sum_bounds_of {a b : List ℚ} {c d : ℚ} (h : List.Forall₂ (fun x y => y * c ≤ x ∧ x ≤ y * d) a b) :
    b.sum * c ≤ a.sum ∧ a.sum ≤ b.sum * d := by
  induction h with
  | nil => simp
  | cons h _ ih =>
    simp only [List.sum_cons, add_mul]
    exact ⟨add_le_add h.1 ih.1, add_le_add h.2 ih.2⟩

/-- **C149** (luminosity): if the cells had no sources before and every source has an owner, the sum of the terms of all cells of all
ranks differs from the sum of the rates of all `n` sources by `n` units of roundoff, and so does the announced total luminosity. -/
theorem luminosity_on_grid_f64 {nearest : Nearest ℚ} (hn : NearestContractF nearest) (owner : Vec 3 ℚ → ℕ)
    (sources : List (List (Source (Vec 3 ℚ) ℚ))) (world : List (List (Vec 3 ℚ) × List ℚ)) (hne : ∀ w ∈ world, w.1 ≠ [])
    (hlen : ∀ w ∈ world, w.2.length = w.1.length) (hzero : ∀ w ∈ world, ∀ t ∈ w.2, t = 0)
    (hown : ∀ s ∈ sources.flatten, owner s.pos < world.length)
    (hrates : ∀ s ∈ sources.flatten, IsF64 s.rate ∧ 0 ≤ s.rate)
    {result : List (List ℚ)} (h : depositF nearest owner sources world = some result) :
    let S := (sources.flatten.map Source.rate).sum
    let n := sources.flatten.length
    (S * (1 - 1 / 2 ^ 53) ^ n ≤ (result.map List.sum).sum ∧ (result.map List.sum).sum ≤ S * (1 + 1 / 2 ^ 53) ^ n) ∧
    (S * (1 - 1 / 2 ^ 53) ^ n ≤ totalLuminosityF sources ∧ totalLuminosityF sources ≤ S * (1 + 1 / 2 ^ 53) ^ n) ∧
    (n ≤ 2 ^ 52 → |(result.map List.sum).sum - totalLuminosityF sources| ≤ 3 * n / 2 ^ 53 * S) := by
  intro S n
  -- the exact deposition into the same cells
  let near : List (Vec 3 ℚ) → Vec 3 ℚ → Option ℕ := fun ps q => if ps = [] then none else some (nearest ps q).2
  have hc : Verif.Sources.NearestContract (fun q p => sqDistF p q) near := by
    refine ⟨fun p => by simp [near], fun ps p hp => ?_⟩
    obtain ⟨x, hx, _, hm⟩ := hn ps p hp
    exact ⟨_, x, by simp [near, hp], hx, hm⟩
  obtain ⟨res, e, hrl, k⟩ := sources_deposited_f64 hn owner sources world hne hlen
  rw [h, Option.some.injEq] at e
  subst e
  have d0 : (0 : ℚ) ≤ 1 - 1 / 2 ^ 53 := by norm_num
  have d1 : (1 - 1 / 2 ^ 53 : ℚ) ≤ 1 := by norm_num
  have c1 : (1 : ℚ) ≤ 1 + 1 / 2 ^ 53 := by norm_num
  have rank : ∀ r w terms, world[r]? = some w → result[r]? = some terms →
      ((sources.flatten.filter fun s => owner s.pos = r).map Source.rate).sum * (1 - 1 / 2 ^ 53) ^ n ≤ terms.sum ∧
      terms.sum ≤ ((sources.flatten.filter fun s => owner s.pos = r).map Source.rate).sum * (1 + 1 / 2 ^ 53) ^ n := by
    intro r w terms hw hr
    have hm := List.mem_of_getElem? hw
    obtain ⟨terms', a1, a2, a3⟩ := k r w hw
    rw [hr, Option.some.injEq] at a1
    subst a1
    obtain ⟨ex, _, b2, b3, b4⟩ := Verif.Sources.depositRank_spec hc owner r w.1 (hne w hm) sources.flatten w.2 (hlen w hm)
    have z : w.2.sum = 0 := List.sum_eq_zero (hzero w hm)
    rw [z, zero_add] at b4
    rw [← b4]
    apply sum_bounds_of
    rw [List.forall₂_iff_get]
    refine ⟨by rw [a2, b2], fun i h1 h2 => ?_⟩
    have hi : i < w.2.length := a2 ▸ h1
    have ht : w.2[i]? = some 0 := by
      rw [List.getElem?_eq_getElem hi, hzero w hm _ (List.getElem_mem hi)]
    have e1 := a3 i 0 ht
    have e2 := b3 i 0 ht
    rw [List.getElem?_eq_getElem h1, Option.some.injEq] at e1
    rw [List.getElem?_eq_getElem h2, Option.some.injEq] at e2
    have same : Verif.Sources.arriving near owner sources.flatten r w.1 i =
        ((sources.flatten.filter fun s => owner s.pos = r ∧ (nearest w.1 s.pos).2 = i).map Source.rate).sum := by
      unfold Verif.Sources.arriving
      simp [near, hne w hm]
    rw [same] at e2
    simp only [List.get_eq_getElem]
    rw [e1, e2]
    generalize hl : (sources.flatten.filter fun s => owner s.pos = r ∧ (nearest w.1 s.pos).2 = i).map Source.rate = l
    have hl' : ∀ a ∈ l, IsF64 a ∧ 0 ≤ a := by
      intro a ha
      rw [← hl] at ha
      obtain ⟨s, hs, rfl⟩ := List.mem_map.1 ha
      exact hrates s (List.mem_of_mem_filter hs)
    have hn' : l.length ≤ n := by
      rw [← hl, List.length_map]
      exact List.length_filter_le _ _
    obtain ⟨t1, t2, _⟩ := fold_accurate 0 l fl_zero le_rfl hl'
    have s0 : 0 ≤ 0 + l.sum := by
      rw [zero_add]
      exact List.sum_nonneg fun a ha => (hl' a ha).2
    exact ⟨(mul_le_mul_of_nonneg_left (pow_le_pow_of_le_one d0 d1 hn') s0).trans t1,
      t2.trans (mul_le_mul_of_nonneg_left (pow_le_pow_right₀ c1 hn') s0)⟩
  have grid : S * (1 - 1 / 2 ^ 53) ^ n ≤ (result.map List.sum).sum ∧ (result.map List.sum).sum ≤ S * (1 + 1 / 2 ^ 53) ^ n := by
    have hS : S = ((List.range world.length).map fun r =>
        ((sources.flatten.filter fun s => owner s.pos = r).map Source.rate).sum).sum := by
      rw [Verif.Sources.sum_by_owner, List.filter_eq_self.mpr fun s hs => by simpa using hown s hs]
    rw [hS]
    apply sum_bounds_of
    rw [List.forall₂_iff_get]
    refine ⟨by simp [hrl], fun r h1 h2 => ?_⟩
    have hr : r < result.length := by simpa using h1
    have hw : r < world.length := by simpa using h2
    have := rank r world[r] result[r] (List.getElem?_eq_getElem hw) (List.getElem?_eq_getElem hr)
    simpa using this
  have total : S * (1 - 1 / 2 ^ 53) ^ n ≤ totalLuminosityF sources ∧ totalLuminosityF sources ≤ S * (1 + 1 / 2 ^ 53) ^ n := by
    have := sumF_bounds (sources.flatten.map Source.rate) fun a ha => by
      obtain ⟨s, hs, rfl⟩ := List.mem_map.1 ha
      exact hrates s hs
    rw [List.length_map] at this
    exact this
  refine ⟨grid, total, fun hn2 => ?_⟩
  have S0 : 0 ≤ S := List.sum_nonneg fun a ha => by
    obtain ⟨s, hs, rfl⟩ := List.mem_map.1 ha
    exact (hrates s hs).2
  have nq : (n : ℚ) ≤ 2 ^ 52 := by exact_mod_cast hn2
  have low : 1 - (n : ℚ) / 2 ^ 53 ≤ (1 - 1 / 2 ^ 53) ^ n := by
    have := one_add_mul_le_pow (a := (-1 / 2 ^ 53 : ℚ)) (by norm_num) n
    refine le_trans (le_of_eq ?_) (this.trans (le_of_eq ?_))
    · ring
    · congr 1
      norm_num
  have half : (1 : ℚ) / 2 ≤ 1 - (n : ℚ) / 2 ^ 53 := by
    have : (n : ℚ) / 2 ^ 53 ≤ 2 ^ 52 / 2 ^ 53 := by gcongr
    norm_num at this ⊢
    linarith
  have prod : ((1 + 1 / 2 ^ 53) ^ n : ℚ) * (1 - 1 / 2 ^ 53) ^ n ≤ 1 := by
    rw [← mul_pow]
    exact pow_le_one₀ (by norm_num) (by norm_num)
  have high : ((1 + 1 / 2 ^ 53) ^ n : ℚ) ≤ 1 + 2 * (n / 2 ^ 53) := by
    have c0 : (0 : ℚ) < (1 + 1 / 2 ^ 53) ^ n := by positivity
    generalize ((1 + 1 / 2 ^ 53) ^ n : ℚ) = c at prod c0 ⊢
    generalize ((1 - 1 / 2 ^ 53) ^ n : ℚ) = d at prod low ⊢
    have x0 : (0 : ℚ) ≤ n / 2 ^ 53 := by positivity
    generalize (n : ℚ) / 2 ^ 53 = x at low half x0 ⊢
    have p : c * (1 - x) ≤ 1 := (mul_le_mul_of_nonneg_left low c0.le).trans prod
    nlinarith
  have m1 := mul_le_mul_of_nonneg_left low S0
  have m2 := mul_le_mul_of_nonneg_left high S0
  have r : 3 * (n : ℚ) / 2 ^ 53 * S = S * (3 * (n / 2 ^ 53)) := by ring
  rw [r]
  generalize ((1 + 1 / 2 ^ 53) ^ n : ℚ) = c at *
  generalize ((1 - 1 / 2 ^ 53) ^ n : ℚ) = d at *
  generalize (n : ℚ) / 2 ^ 53 = x at *
  rw [abs_le]
  constructor <;> linarith [grid.1, grid.2, total.1, total.2]

/-! ### The hypotheses are satisfiable -/

/-- Three cells on two ranks. -/
def exWorld : List (List (Vec 3 ℚ) × List ℚ) :=
  [([![1 / 4, 1 / 4, 1 / 4], ![1 / 4, 3 / 4, 1 / 4]], [0, 0]), ([![3 / 4, 1 / 4, 1 / 4]], [0])]

/-- The owner of a position. -/
def exOwner (p : Vec 3 ℚ) : ℕ := if p 0 < 1 / 2 then 0 else 1

/-- Four sources on two ranks. -/
def exSources : List (List (Source (Vec 3 ℚ) ℚ)) :=
  [[⟨![1 / 4, 5 / 8, 1 / 4], 3⟩, ⟨![3 / 4, 1 / 2, 1 / 4], 5⟩], [⟨![1 / 8, 1 / 8, 1 / 8], 7⟩, ⟨![3 / 8, 7 / 8, 0], 2 ^ 53⟩]]

example : (∀ w ∈ exWorld, w.1 ≠ []) ∧ (∀ w ∈ exWorld, w.2.length = w.1.length) ∧ (∀ w ∈ exWorld, ∀ t ∈ w.2, t = 0) ∧
    (∀ s ∈ exSources.flatten, exOwner s.pos < exWorld.length) ∧ (∀ s ∈ exSources.flatten, IsF64 s.rate ∧ 0 ≤ s.rate) := by
  unfold IsF64
  decide +kernel

example : depositF scanF exOwner exSources exWorld = some [[7, 2 ^ 53 + 4], [5]] ∧ totalLuminosityF exSources = 2 ^ 53 + 16 := by
  decide +kernel

example : ∀ x ∈ [(![1 / 4, 1 / 4, 1 / 4] : Vec 3 ℚ), ![1 / 4, 3 / 4, 1 / 4]], Separated x ![1 / 4, 5 / 8, 1 / 4] := by
  unfold Separated
  decide +kernel

/-- The same cells on a single rank get the same terms. -/
example : depositF scanF (fun _ => 0) [exSources.flatten]
    [([![1 / 4, 1 / 4, 1 / 4], ![1 / 4, 3 / 4, 1 / 4], ![3 / 4, 1 / 4, 1 / 4]], [0, 0, 0])] = some [[7, 2 ^ 53 + 4, 5]] := by
  decide +kernel

/-! ### The order of the sources matters -/

/-- The same sources in another order give another source term in a cell and another total luminosity: three sources at one
place, of rates `2 ^ 53`, 1 and 1. -/
theorem order_of_sources_matters_f64 : ∃ nearest, NearestContractF nearest ∧ ∃ a b : List (Source (Vec 3 ℚ) ℚ), a.Perm b ∧
    depositF nearest (fun _ => 0) [a] [([![0, 0, 0]], [0])] = some [[2 ^ 53]] ∧
    depositF nearest (fun _ => 0) [b] [([![0, 0, 0]], [0])] = some [[2 ^ 53 + 2]] ∧
    totalLuminosityF [a] = 2 ^ 53 ∧ totalLuminosityF [b] = 2 ^ 53 + 2 := by
  refine ⟨scanF, scanF_contract, [⟨![0, 0, 0], 2 ^ 53⟩, ⟨![0, 0, 0], 1⟩, ⟨![0, 0, 0], 1⟩],
    [⟨![0, 0, 0], 1⟩, ⟨![0, 0, 0], 1⟩, ⟨![0, 0, 0], 2 ^ 53⟩], ?_, ?_⟩
  · exact ((List.Perm.swap _ _ _).trans ((List.Perm.swap _ _ _).cons _))
  · decide +kernel

/-- The announced total luminosity is not always the sum of the terms of the cells. -/
theorem announced_luminosity_differs_f64 : ∃ nearest, NearestContractF nearest ∧ ∃ owner sources world result,
    (∀ w ∈ world, w.1 ≠ []) ∧ (∀ w ∈ world, w.2.length = w.1.length) ∧
    depositF nearest owner sources world = some result ∧
    (result.map List.sum).sum = 2 ^ 53 + 2 ∧ totalLuminosityF sources = 2 ^ 53 := by
  refine ⟨scanF, scanF_contract, fun _ => 0, [[⟨![0, 0, 0], 2 ^ 53⟩, ⟨![1, 0, 0], 1⟩, ⟨![1, 0, 0], 1⟩]],
    [([![0, 0, 0], ![1, 0, 0]], [0, 0])], [[2 ^ 53, 2]], ?_⟩
  decide +kernel

end Verif.Rounding.Deposit
