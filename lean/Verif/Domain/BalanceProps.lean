import Verif.Domain.DecompositionProps

/-!
# C16: the balance for large ranges of keys

The keys of three-dimensional positions have 126 bits, but there are 42 steps of bisection.  The loads are balanced up to the
number of keys which can be in an interval of the length which the bisection resolves.
-/

namespace Verif.Decomp

theorem bisect_coarse (load) (ks : List Nat) (hl : Counts load ks) (hnd : ks.Nodup) {w b : Nat} (hb : 1 ≤ b)
    (hwin : ∀ a, cntO ks a (a + w + 2) ≤ b) (target s : Nat) (ht : 0 < target) (fuel lo hi : Nat) (hs : s ≤ lo) (hlt : lo < hi)
    (hlo : cnt ks s lo ≤ target) :
    ∃ pos, run load (bisect target s fuel lo hi) = some pos ∧ lo ≤ pos ∧ pos < hi ∧
      (hi - lo ≤ w * 2 ^ fuel + 1 → (cnt ks s lo < target ∨ lo = s) → target < cnt ks s hi →
        target ≤ cntO ks s pos + b ∧ cntO ks s pos ≤ target + b) := by
  induction fuel generalizing lo hi with
  | zero =>
    obtain ⟨hm1, hm2⟩ := middle_lt lo hi hlt
    refine ⟨middle lo hi, ?_, hm1, hm2, ?_⟩
    · simp only [bisect, run]
      rw [hl s (middle lo hi) (by omega)]
    · generalize middle lo hi = p at hm1 hm2 ⊢
      intro hw hor hhi
      rw [cnt_eq_cntO] at hhi hlo hor
      simp only [Nat.pow_zero, Nat.mul_one] at hw
      have e1 := cntO_split ks s p (hi + 1) (by omega) (by omega)
      have e2 := cntO_mono ks p (hi + 1) (p + w + 2) (by omega)
      have e3 := hwin p
      have e4 := cntO_split ks s lo p hs hm1
      have e5 := cntO_mono ks lo p (lo + w + 2) (by omega)
      have e6 := hwin lo
      have e7 := cntO_mono ks s lo (lo + 1) (by omega)
      refine ⟨by omega, ?_⟩
      rcases hor with h | rfl
      · omega
      · omega
  | succ fuel ih =>
    obtain ⟨hm1, hm2⟩ := middle_lt lo hi hlt
    have hload := hl s (middle lo hi) (by omega)
    simp only [bisect, run]
    rw [hload]
    simp only
    have hp : w * (2 : Nat) ^ (fuel + 1) = w * 2 ^ fuel * 2 := by rw [Nat.pow_succ, Nat.mul_assoc]
    by_cases c1 : cnt ks s (middle lo hi) < target
    · rw [if_pos c1]
      obtain ⟨pos, h1, h2, h3, h4⟩ := ih (middle lo hi) hi (by omega) hm2 (by omega)
      refine ⟨pos, h1, by omega, h3, ?_⟩
      intro hw hor hhi
      exact h4 (by unfold middle; omega) (Or.inl c1) hhi
    · rw [if_neg c1]
      by_cases c2 : target < cnt ks s (middle lo hi)
      · rw [if_pos c2]
        have hne : lo ≠ middle lo hi := by
          intro hc; rw [← hc] at c2; omega
        obtain ⟨pos, h1, h2, h3, h4⟩ := ih lo (middle lo hi) hs (by omega) hlo
        refine ⟨pos, h1, h2, by omega, ?_⟩
        intro hw hor hhi
        exact h4 (by unfold middle; omega) hor c2
      · rw [if_neg c2]
        refine ⟨middle lo hi, rfl, hm1, hm2, ?_⟩
        intro _ _ _
        have e0 : cnt ks s (middle lo hi) = target := by omega
        rw [cnt_eq_cntO] at e0
        have e1 := cntO_succ ks hnd s (middle lo hi)
        have e2 := cntO_mono ks s (middle lo hi) (middle lo hi + 1) (by omega)
        omega

theorem findSegments_coarse (load) (ks : List Nat) (hl : Counts load ks) (hnd : ks.Nodup) {w b : Nat} (hb : 1 ≤ b)
    (hwin : ∀ a, cntO ks a (a + w + 2) ≤ b) (keyMax maxDepth target maxKey : Nat) (hmax : maxKey < keyMax) (ht : 0 < target)
    (n start slack : Nat) (hstart : start < maxKey ∨ (n = 0 ∧ start = maxKey)) (hw : maxKey - start ≤ w * 2 ^ maxDepth + 1)
    (htot : (n + 1) * target ≤ cntO ks start (maxKey + 1) + slack) (hslack : slack + n * b < target) :
    ∃ segs, run load (findSegments keyMax maxDepth target maxKey n start) = some segs ∧
      (∀ e ∈ segs.dropLast, target ≤ cntO ks e.1 e.2 + b ∧ cntO ks e.1 e.2 ≤ target + b) ∧
      ∀ e, segs.getLast? = some e → target ≤ cntO ks e.1 e.2 + (slack + n * b) := by
  induction n generalizing start slack with
  | zero =>
    refine ⟨[(start, maxKey + 1)], ?_, by simp, ?_⟩
    · simp only [findSegments, run, next]
      rw [if_pos (by omega)]
    · intro e he
      simp only [List.getLast?_singleton, Option.some.injEq] at he
      subst he
      simp only
      omega
  | succ n ih =>
    have hlt : start < maxKey := by omega
    have hc1 : cnt ks start start ≤ target := by
      have := cntO_single ks hnd start
      rw [cnt_eq_cntO]
      omega
    obtain ⟨pos, h1, h2, h3, h4⟩ := bisect_coarse load ks hl hnd hb hwin target start ht maxDepth start maxKey
      (Nat.le_refl _) hlt hc1
    have hnb : (n + 1) * b = n * b + b := by ring
    have hnt : (n + 1 + 1) * target = (n + 1) * target + target := by ring
    have hge : target ≤ (n + 1) * target := by nlinarith
    have hgt : target < cnt ks start maxKey := by
      rw [cnt_eq_cntO]
      omega
    have hbal := h4 hw (Or.inr rfl) hgt
    have hsplit := cntO_split ks start pos (maxKey + 1) h2 (by omega)
    obtain ⟨segs, g1, g2, g3⟩ := ih pos (slack + b) (Or.inl h3) (by omega) (by omega) (by omega)
    refine ⟨(start, pos) :: segs, ?_, ?_, ?_⟩
    · simp only [findSegments]
      rw [run_bind, h1, Option.bind_some, run_bind, g1]
      rfl
    · cases segs with
      | nil => simp
      | cons x xs =>
        rw [List.dropLast_cons_cons]
        intro e he
        rcases List.mem_cons.mp he with rfl | he
        · exact hbal
        · exact g2 e he
    · cases segs with
      | nil =>
        exfalso
        have hl := findSegments_spec load ks hl hnd keyMax maxDepth target maxKey ht hmax n pos (Or.inl h3)
        obtain ⟨segs', k1, k2, -⟩ := hl
        rw [g1] at k1
        obtain rfl := Option.some.inj k1
        simp at k2
      | cons x xs =>
        intro e he
        rw [List.getLast?_cons_cons] at he
        have := g3 e he
        omega

/-- **C16, large ranges.**  If at most `b` keys are in any interval of `w + 2` keys, where `w * 2 ^ MAX_DEPTH + 1` is at least the
range of the keys, then the number of particles of every rank but the last is at most `b` away from the average, and the last
rank has at most `(N - 1) * b` fewer.  The average has to be large compared with `b`. -/
theorem load_balanced_coarse {search} (hc : SearchContract search) (keyMax maxDepth w b : Nat)
    (world : List (List Nat)) (hne : world ≠ []) (hranks : ∀ ks ∈ world, ks ≠ [])
    (hnd : world.flatten.Nodup) (hkeys : ∀ k ∈ world.flatten, k < keyMax)
    (hrange : ∀ k ∈ world.flatten, ∀ k' ∈ world.flatten, k - k' ≤ w * 2 ^ maxDepth + 1)
    (hwin : ∀ a, world.flatten.countP (fun k => decide (a ≤ k ∧ k < a + w + 2)) ≤ b)
    (havg : world.length * b < world.flatten.length / world.length) :
    ∃ cuts loads, decompose search keyMax maxDepth world = some (cuts, loads) ∧
      (∀ rank, rank + 1 < world.length →
        world.flatten.length / world.length ≤ world.flatten.countP (fun k => decide (owningRank search cuts k = rank)) + b ∧
        world.flatten.countP (fun k => decide (owningRank search cuts k = rank)) ≤ world.flatten.length / world.length + b) ∧
      world.flatten.length / world.length ≤
        world.flatten.countP (fun k => decide (owningRank search cuts k = world.length - 1)) + (world.length - 1) * b := by
  obtain ⟨lo, hi, segs, loads, h1, h2, h3, h4, h5, h6, h7, h8, -⟩ :=
    decompose_spec hc keyMax maxDepth world hne hranks hnd hkeys
  obtain ⟨lo1, lo2⟩ := globalMin_spec world lo h1
  obtain ⟨hi1, hi2⟩ := globalMax_spec world hi h2
  have hpos : 0 < world.length := List.length_pos_iff.mpr hne
  have hb : 1 ≤ b := by
    have := hwin lo
    have hlo : 0 < world.flatten.countP (fun k => decide (lo ≤ k ∧ k < lo + w + 2)) := by
      rw [List.countP_pos_iff]
      exact ⟨lo, lo1, by simp only [decide_eq_true_eq]; omega⟩
    omega
  set target := world.flatten.length / world.length with htd
  have hnb : (world.length - 1) * b + b = world.length * b := by
    rw [← Nat.succ_mul, Nat.succ_eq_add_one, Nat.sub_add_cancel hpos]
  have htpos : 0 < target := by omega
  have hndr : ∀ ks ∈ world, ks.Nodup := (List.nodup_flatten.mp hnd).1
  have hcount : Counts (sumLoads search (world.map KeyCounter.new)) world.flatten :=
    fun a b hab => sumLoads_eq hc world hndr a b hab
  have hlh : lo ≤ hi := lo2 hi hi1
  have hnext : next keyMax hi = hi + 1 := by
    unfold next
    rw [if_pos (by have := hkeys hi hi1; omega)]
  have htotal : cntO world.flatten lo (hi + 1) = world.flatten.length := by
    unfold cntO
    rw [List.countP_eq_length]
    intro k hk
    have h1 := lo2 k hk
    have h2 := hi2 k hk
    simp only [decide_eq_true_eq]
    omega
  have htotal' : cnt world.flatten lo (hi + 1) = world.flatten.length := by
    unfold cnt
    rw [List.countP_eq_length]
    intro k hk
    have h1 := lo2 k hk
    have h2 := hi2 k hk
    simp only [decide_eq_true_eq]
    omega
  have htl : world.length * target ≤ world.flatten.length := Nat.mul_div_le _ _
  have hstart : lo < hi ∨ (world.length - 1 = 0 ∧ lo = hi) := by
    by_cases h : lo < hi
    · exact Or.inl h
    · right
      have he : lo = hi := by omega
      refine ⟨?_, he⟩
      have hone : world.flatten.length ≤ 1 := by
        have h1 := cntO_single world.flatten hnd lo
        rw [← htotal, ← he]
        exact h1
      by_contra hcon
      have : 2 * target ≤ world.length * target := Nat.mul_le_mul_right _ (by omega)
      omega
  obtain ⟨segs', g1, g2, g3⟩ := findSegments_coarse _ world.flatten hcount hnd hb (fun a => hwin a) keyMax maxDepth target hi
    (hkeys hi hi1) htpos (world.length - 1) lo 0 hstart (hrange hi hi1 lo lo1)
    (by rw [htotal, Nat.sub_add_cancel hpos]; omega) (by omega)
  obtain ⟨segs'', k1, k2, k3, -⟩ := findSegments_spec _ world.flatten hcount hnd keyMax
    maxDepth target hi htpos (hkeys hi hi1) (world.length - 1) lo hstart
  rw [g1] at k1
  obtain rfl := Option.some.inj k1
  -- the segments are the same
  have hcuts : segs.map Prod.snd = segs'.map Prod.snd := by
    have hloads := getLoads_spec _ world.flatten hcount segs'
      (fun e he => by have := chain_le lo segs' k3 e he; omega)
    have : decompose search keyMax maxDepth world = some (segs'.map Prod.snd, segs'.map (fun e => cnt world.flatten e.1 e.2)) := by
      unfold decompose
      rw [h1, h2]
      simp only [newProg, run]
      rw [hnext, hcount lo (hi + 1) (by omega), htotal']
      simp only
      rw [if_neg (by omega), run_bind, ← htd, g1, Option.bind_some, run_bind, hloads]
      rfl
    rw [h3] at this
    exact (Prod.mk.inj (Option.some.inj this)).1
  rw [hcuts] at h3
  have hcover : ∀ x ∈ segs', 0 < cntO world.flatten x.1 x.2 := by
    intro x hx
    have hcase : x ∈ segs'.dropLast ∨ segs'.getLast? = some x := by
      obtain ⟨j, hj⟩ := List.mem_iff_getElem?.mp hx
      have hjl := (List.getElem?_eq_some_iff.mp hj).1
      by_cases hjj : j < segs'.length - 1
      · left
        rw [List.mem_iff_getElem?]
        exact ⟨j, by rw [List.getElem?_dropLast, if_pos hjj]; exact hj⟩
      · right
        rw [List.getLast?_eq_getElem?, show segs'.length - 1 = j by omega]
        exact hj
    rcases hcase with hd | hl
    · have := (g2 x hd).1
      have : b ≤ world.length * b := Nat.le_mul_of_pos_left _ hpos
      omega
    · have := g3 x hl
      omega
  have hstrict : ∀ x ∈ segs', x.1 < x.2 := by
    intro x hx
    have hx0 := hcover x hx
    by_contra hcon
    have : cntO world.flatten x.1 x.2 = 0 := by
      unfold cntO
      rw [List.countP_eq_zero]
      intro k _
      simp only [decide_eq_true_eq]
      omega
    omega
  have hnodup := strict_of_nonempty lo segs' k3 hstrict
  have howned : ∀ (rank : Nat) (e : Nat × Nat), segs'[rank]? = some e →
      world.flatten.countP (fun k => decide (owningRank search (segs'.map Prod.snd) k = rank)) = cntO world.flatten e.1 e.2 := by
    intro rank e he
    unfold cntO
    apply List.countP_congr
    intro k hk
    simp only [decide_eq_true_eq]
    constructor
    · intro hr
      have := owned_cases hc lo segs' k3 rank e he k (lo2 k hk) hr
      have := hstrict e (List.mem_of_getElem? he)
      omega
    · intro hr
      exact owned_of_strict hc lo segs' k3 hnodup rank e he k hr.1 hr.2
  refine ⟨_, loads, h3, ?_, ?_⟩
  · intro rank hrank
    obtain ⟨e, he⟩ : ∃ e, segs'[rank]? = some e :=
      ⟨segs'[rank]'(by omega), List.getElem?_eq_getElem _⟩
    have hdl : e ∈ segs'.dropLast := by
      rw [List.mem_iff_getElem?]
      refine ⟨rank, ?_⟩
      rw [List.getElem?_dropLast, if_pos (by omega)]
      exact he
    rw [howned rank e he]
    exact g2 e hdl
  · obtain ⟨e, he⟩ : ∃ e, segs'[world.length - 1]? = some e :=
      ⟨segs'[world.length - 1]'(by omega), List.getElem?_eq_getElem _⟩
    rw [howned _ e he]
    have := g3 e (by rw [List.getLast?_eq_getElem?, show segs'.length - 1 = world.length - 1 by omega]; exact he)
    omega

/-- A hundred keys, nine in every window; the bisection ends after four steps. -/
example : ∃ cuts loads, decompose firstMatch 100 4 [(List.range 100).filter (· % 2 = 0), (List.range 100).filter (· % 2 = 1)] =
    some (cuts, loads) := by
  have hperm : [(List.range 100).filter (· % 2 = 0), (List.range 100).filter (· % 2 = 1)].flatten.Nodup := by decide +kernel
  obtain ⟨cuts, loads, h, -⟩ := load_balanced_coarse firstMatch_contract 100 4 7 9
    [(List.range 100).filter (· % 2 = 0), (List.range 100).filter (· % 2 = 1)] (by decide +kernel) (by decide +kernel)
    hperm (by decide +kernel) (by decide +kernel) (fun a => by
      rw [List.countP_eq_length_filter]
      refine (List.subperm_of_subset (l₂ := List.range' a 9) (List.Nodup.filter _ hperm) fun k hk => ?_).length_le.trans (by simp)
      have := (List.mem_filter.1 hk).2
      simp only [decide_eq_true_eq] at this
      rw [List.mem_range'_1]
      omega) (by decide +kernel)
  exact ⟨cuts, loads, h⟩

end Verif.Decomp
