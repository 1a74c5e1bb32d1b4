import Verif.Domain.DecompositionLemmas

/-!
# C14, C15, C16: domain decomposition
-/

namespace Verif.Decomp

/-! ### Ownership -/

theorem index_bounds (ks : List Nat) (hs : ks.Pairwise (· ≤ ·)) (k i : Nat) (h : ks[i]? = some k) :
    ks.countP (fun x => decide (x < k)) ≤ i ∧ i + 1 ≤ ks.countP (fun x => decide (x ≤ k)) := by
  induction ks generalizing i with
  | nil => simp at h
  | cons x xs ih =>
    have hp : (∀ a ∈ xs, x ≤ a) ∧ xs.Pairwise (· ≤ ·) := List.pairwise_cons.mp hs
    rw [List.countP_cons, List.countP_cons]
    cases i with
    | zero =>
      simp only [List.getElem?_cons_zero, Option.some.injEq] at h
      subst h
      have h1 : xs.countP (fun y => decide (y < x)) = 0 := by
        rw [List.countP_eq_zero]
        intro a ha
        have := hp.1 a ha
        simp only [decide_eq_true_eq]; omega
      rw [h1]
      simp
    | succ i =>
      rw [List.getElem?_cons_succ] at h
      obtain ⟨h1, h2⟩ := ih hp.2 i h
      have hle := hp.1 k (List.mem_of_getElem? h)
      simp only [decide_eq_true_eq]
      constructor
      · split <;> omega
      · rw [if_pos hle]; omega

theorem owningRank_bounds {search} (hc : SearchContract search) (cuts : List Nat)
    (hs : cuts.Pairwise (· ≤ ·)) (k : Nat) :
    cuts.countP (fun x => decide (x < k)) ≤ owningRank search cuts k ∧
    owningRank search cuts k ≤ cuts.countP (fun x => decide (x ≤ k)) := by
  unfold owningRank
  cases h : search cuts k with
  | ok i =>
    obtain ⟨h1, h2⟩ := index_bounds cuts hs k i (hc.ok cuts k i hs h)
    exact ⟨by simp only [stopIndex]; omega, h2⟩
  | err i =>
    have h1 := (hc.err cuts k i hs h).2
    simp only [stopIndex]
    rw [h1]
    refine ⟨Nat.le_refl _, ?_⟩
    apply List.countP_mono_left
    intro x _
    simp only [decide_eq_true_eq]
    omega

theorem owningRank_mono {search} (hc : SearchContract search) (cuts : List Nat)
    (hs : cuts.Pairwise (· ≤ ·)) (k k' : Nat) (h : k ≤ k') :
    owningRank search cuts k ≤ owningRank search cuts k' := by
  by_cases he : k = k'
  · subst he; exact Nat.le_refl _
  · refine Nat.le_trans (owningRank_bounds hc cuts hs k).2
      (Nat.le_trans ?_ (owningRank_bounds hc cuts hs k').1)
    apply List.countP_mono_left
    intro x _
    simp only [decide_eq_true_eq]
    omega

theorem owningRank_lt {search} (hc : SearchContract search) (cuts : List Nat)
    (hs : cuts.Pairwise (· ≤ ·)) (k m : Nat) (hm : cuts.getLast? = some m) (hk : k < m) :
    owningRank search cuts k < cuts.length := by
  refine Nat.lt_of_le_of_lt (owningRank_bounds hc cuts hs k).2 ?_
  obtain ⟨init, rfl⟩ := List.getLast?_eq_some_iff.mp hm
  rw [List.countP_append, List.countP_singleton, if_neg (by simp; omega)]
  have := List.countP_le_length (p := fun x => decide (x ≤ k)) (l := init)
  simp
  omega

/-- Everything about the segments at once. -/
theorem decompose_spec {search} (hc : SearchContract search) (keyMax maxDepth : Nat)
    (world : List (List Nat)) (hne : world ≠ []) (hranks : ∀ ks ∈ world, ks ≠ [])
    (hnd : world.flatten.Nodup) (hkeys : ∀ k ∈ world.flatten, k < keyMax) :
    ∃ lo hi segs loads, globalMin world = some lo ∧ globalMax world = some hi ∧
      decompose search keyMax maxDepth world = some (segs.map Prod.snd, loads) ∧
      segs.length = world.length ∧ Chain lo segs ∧
      (segs.map Prod.snd).getLast? = some (hi + 1) ∧
      loads = segs.map (fun e => cnt world.flatten e.1 e.2) ∧
      (∀ e ∈ segs.dropLast, e.2 < hi) ∧
      (hi - lo ≤ 2 ^ maxDepth + 1 → ∀ e ∈ segs.dropLast,
        world.flatten.length / world.length ≤ cntO world.flatten e.1 e.2 + 2 ∧
        cntO world.flatten e.1 e.2 ≤ world.flatten.length / world.length) := by
  obtain ⟨⟨lo, hlo⟩, ⟨hi, hhi⟩⟩ := global_some world hne hranks
  obtain ⟨lo1, lo2⟩ := globalMin_spec world lo hlo
  obtain ⟨hi1, hi2⟩ := globalMax_spec world hi hhi
  have hndr : ∀ ks ∈ world, ks.Nodup := (List.nodup_flatten.mp hnd).1
  have hcount : Counts (sumLoads search (world.map KeyCounter.new)) world.flatten :=
    fun a b hab => sumLoads_eq hc world hndr a b hab
  have hlen : world.length ≤ world.flatten.length := by
    clear hne hnd hkeys lo1 lo2 hi1 hi2 hndr hcount hlo hhi
    induction world with
    | nil => simp
    | cons ks rest ih =>
      have h1 := ih (fun k hk => hranks k (by simp [hk]))
      have h2 := List.length_pos_iff.mpr (hranks ks (by simp))
      rw [List.flatten_cons, List.length_append, List.length_cons]
      omega
  have hpos : 0 < world.length := List.length_pos_iff.mpr hne
  have hlh : lo ≤ hi := lo2 hi hi1
  have hnext : next keyMax hi = hi + 1 := by
    unfold next
    rw [if_pos (by have := hkeys hi hi1; omega)]
  have htotal : cnt world.flatten lo (hi + 1) = world.flatten.length := by
    unfold cnt
    rw [List.countP_eq_length]
    intro k hk
    have h1 := lo2 k hk
    have h2 := hi2 k hk
    simp only [decide_eq_true_eq]
    omega
  have ht : 0 < world.flatten.length / world.length := Nat.div_pos hlen hpos
  have hstart : lo < hi ∨ (world.length - 1 = 0 ∧ lo = hi) := by
    by_cases h : lo < hi
    · exact Or.inl h
    · right
      have he : lo = hi := by omega
      refine ⟨?_, he⟩
      have : world.flatten.length ≤ 1 := by
        have h1 := cntO_single world.flatten hnd lo
        rw [← htotal, cnt_eq_cntO, ← he]
        have h2 : cntO world.flatten lo (lo + 1 + 1) = cntO world.flatten lo (lo + 1) := by
          unfold cntO
          apply List.countP_congr
          intro k hk
          have h3 := hi2 k hk
          simp only [decide_eq_true_eq]
          omega
        omega
      omega
  obtain ⟨segs, g1, g2, g3, g4, g5, g6, g7⟩ := findSegments_spec _ world.flatten hcount hnd keyMax
    maxDepth _ hi ht (hkeys hi hi1) (world.length - 1) lo hstart
  have hloads := getLoads_spec _ world.flatten hcount segs
    (fun e he => by have := chain_le lo segs g3 e he; omega)
  refine ⟨lo, hi, segs, _, hlo, hhi, ?_, by omega, g3, ?_, rfl, g6, ?_⟩
  · unfold decompose
    rw [hlo, hhi]
    simp only [newProg, run]
    rw [hnext, hcount lo (hi + 1) (by omega), htotal]
    simp only
    rw [if_neg (by omega), run_bind, g1, Option.bind_some, run_bind, hloads]
    rfl
  · rw [List.getLast?_map]
    exact g5
  · intro hw
    apply g7 hw
    have e1 : cntO world.flatten lo (hi + 1) = world.flatten.length := by
      unfold cntO
      rw [List.countP_eq_length]
      intro k hk
      have h1 := lo2 k hk
      have h2 := hi2 k hk
      simp only [decide_eq_true_eq]
      omega
    rw [e1, show world.length - 1 + 1 = world.length by omega, Nat.mul_comm]
    exact Nat.div_mul_le_self _ _

/-- **C14.** If every rank holds at least one particle and all particle keys are distinct (and below
the largest value of the key type), the decomposition is computed without panic, has one cut per
rank, assigns every particle to an existing rank, and ownership is monotone in the key, so each
rank owns a contiguous range of keys. -/
theorem decomposition_assigns_existing_rank {search} (hc : SearchContract search)
    (keyMax maxDepth : Nat) (world : List (List Nat)) (hne : world ≠ [])
    (hranks : ∀ ks ∈ world, ks ≠ []) (hnd : world.flatten.Nodup)
    (hkeys : ∀ k ∈ world.flatten, k < keyMax) :
    ∃ cuts loads, decompose search keyMax maxDepth world = some (cuts, loads) ∧
      cuts.length = world.length ∧
      (∀ k ∈ world.flatten, owningRank search cuts k < world.length) ∧
      (∀ k k', k ≤ k' → owningRank search cuts k ≤ owningRank search cuts k') ∧
      (∀ k m k', k ≤ m → m ≤ k' → owningRank search cuts k = owningRank search cuts k' →
        owningRank search cuts m = owningRank search cuts k) := by
  obtain ⟨lo, hi, segs, loads, h1, h2, h3, h4, h5, h6, h7, h8, h9⟩ :=
    decompose_spec hc keyMax maxDepth world hne hranks hnd hkeys
  have hs := chain_sorted lo segs h5
  have hmono := owningRank_mono hc _ hs
  refine ⟨_, loads, h3, by simp [h4], ?_, hmono, ?_⟩
  · intro k hk
    have hle := (globalMax_spec world hi h2).2 k hk
    have := owningRank_lt hc _ hs k (hi + 1) h6 (by omega)
    simpa [h4] using this
  · intro k m k' a b e
    have := hmono k m a
    have := hmono m k' b
    omega

/-! ### All ranks agree -/

theorem sumLoads_forall2 {α : Type} (search) (world : List (List Nat)) (a b : Nat)
    (k : Nat → Prog α) (v : Nat) (h : sumLoads search world a b = some v) :
    ∃ vals : List Nat, vals.sum = v ∧
      List.Forall₂ (fun (kr : List Nat × Nat × Nat × (Nat → Prog α)) (v : Nat) =>
        localLoad search kr.1 kr.2.1 kr.2.2.1 = some v)
        (world.zip (List.replicate world.length (a, b, k))) vals := by
  induction world generalizing v with
  | nil =>
    simp only [sumLoads, Option.some.injEq] at h
    exact ⟨[], by simpa using h, by simp⟩
  | cons ks rest ih =>
    unfold sumLoads at h
    cases h1 : localLoad search ks a b with
    | none => rw [h1] at h; simp at h
    | some x =>
      cases h2 : sumLoads search rest a b with
      | none => rw [h1, h2] at h; simp at h
      | some y =>
        rw [h1, h2] at h
        simp only [Option.some.injEq] at h
        obtain ⟨vals, e1, e2⟩ := ih y h2
        refine ⟨x :: vals, by simp [e1, h], ?_⟩
        simp only [List.length_cons, List.replicate_succ, List.zip_cons_cons]
        exact List.Forall₂.cons h1 e2

theorem forall2_sumLoads {α : Type} (search) (world : List (List Nat)) (a b : Nat)
    (k : Nat → Prog α) (vals : List Nat)
    (h : List.Forall₂ (fun (kr : List Nat × Nat × Nat × (Nat → Prog α)) (v : Nat) =>
        localLoad search kr.1 kr.2.1 kr.2.2.1 = some v)
        (world.zip (List.replicate world.length (a, b, k))) vals) :
    sumLoads search world a b = some vals.sum := by
  induction world generalizing vals with
  | nil =>
    simp at h
    subst h
    rfl
  | cons ks rest ih =>
    simp only [List.length_cons, List.replicate_succ, List.zip_cons_cons] at h
    cases h with
    | cons h1 h2 =>
      unfold sumLoads
      rw [h1, ih _ h2]
      simp

theorem spmd_exists {α : Type} (search) (world : List (List Nat)) (hne : world ≠ []) (p : Prog α)
    (r : α) (h : run (sumLoads search world) p = some r) :
    Spmd search world (List.replicate world.length p) (List.replicate world.length r) := by
  induction p with
  | ret a =>
    simp only [run, Option.some.injEq] at h
    subst h
    have := Spmd.done (search := search) world (List.replicate world.length a) (by simp)
    simpa using this
  | panic => simp [run] at h
  | load a b k ih =>
    unfold run at h
    cases hv : sumLoads search world a b with
    | none => rw [hv] at h; simp at h
    | some v =>
      rw [hv] at h
      obtain ⟨vals, e1, e2⟩ := sumLoads_forall2 search world a b k v hv
      have hpos := List.length_pos_iff.mpr hne
      have := Spmd.step (search := search) world (List.replicate world.length (a, b, k)) vals
        (List.replicate world.length r) (by simp; omega) e2 (by simp)
        (by simpa [e1] using ih v h)
      simpa using this

theorem spmd_unique {α : Type} (search) (world : List (List Nat)) (hne : world ≠ [])
    (ps : List (Prog α)) (results : List α) (h : Spmd search world ps results) (p : Prog α)
    (hp : ps = List.replicate world.length p) :
    ∃ r, run (sumLoads search world) p = some r ∧ results = List.replicate world.length r := by
  induction h generalizing p with
  | done results hlen =>
    cases results with
    | nil => simp at hlen; exact absurd hlen hne
    | cons r rs =>
      have hpos := List.length_pos_iff.mpr hne
      obtain ⟨n, hn⟩ := Nat.exists_eq_succ_of_ne_zero (Nat.ne_of_gt hpos)
      rw [hn, List.replicate_succ, List.map_cons] at hp
      have hhead : Prog.ret r = p := (List.cons.inj hp).1
      subst hhead
      refine ⟨r, rfl, ?_⟩
      have hall : ∀ x ∈ rs, x = r := by
        intro x hx
        have : Prog.ret x ∈ rs.map Prog.ret := List.mem_map.mpr ⟨x, hx, rfl⟩
        rw [(List.cons.inj hp).2] at this
        have := List.eq_of_mem_replicate this
        injection this
      rw [hn, List.replicate_succ]
      congr 1
      rw [List.eq_replicate_iff]
      refine ⟨?_, hall⟩
      rw [hn] at hlen
      simp at hlen
      omega
  | step reqs vals results hreq hf hlen hs ih =>
    have hpos := List.length_pos_iff.mpr hne
    cases reqs with
    | nil => exact absurd rfl hreq
    | cons q qs =>
      obtain ⟨a, b, k⟩ := q
      obtain ⟨n, hn⟩ := Nat.exists_eq_succ_of_ne_zero (Nat.ne_of_gt hpos)
      have hp' := hp
      rw [hn, List.replicate_succ, List.map_cons] at hp'
      have hhead : Prog.load a b k = p := (List.cons.inj hp').1
      subst hhead
      have hall : ∀ x ∈ (a, b, k) :: qs, x = (a, b, k) := by
        intro x hx
        have : Prog.load x.1 x.2.1 x.2.2 ∈ List.replicate world.length (Prog.load a b k) := by
          rw [← hp]; exact List.mem_map.mpr ⟨x, hx, rfl⟩
        have := List.eq_of_mem_replicate this
        injection this with e1 e2 e3
        obtain ⟨x1, x2, x3⟩ := x
        simp only at e1 e2 e3
        rw [e1, e2, e3]
      have hrep : (a, b, k) :: qs = List.replicate world.length (a, b, k) :=
        List.eq_replicate_iff.mpr ⟨hlen.symm, hall⟩
      rw [hrep] at hf ih
      have hsum := forall2_sumLoads search world a b k vals hf
      obtain ⟨r, h1, h2⟩ := ih (k vals.sum) (by simp)
      exact ⟨r, by unfold run; rw [hsum]; exact h1, h2⟩

/-- **C15 (all ranks agree).** Let every rank run the decomposition program with the global smallest
and largest key and with its own particles.  If the computation succeeds, there is a synchronous
execution (no rank waits for a collective another rank does not enter), and in every execution all
ranks obtain the same decomposition. -/
theorem all_ranks_same_decomposition (search) (keyMax maxDepth : Nat) (world : List (List Nat))
    (hne : world ≠ []) (lo hi : Nat) (hlo : globalMin world = some lo)
    (hhi : globalMax world = some hi) :
    (∀ d, decompose search keyMax maxDepth world = some d →
      Spmd search (world.map KeyCounter.new)
        (List.replicate world.length (newProg keyMax maxDepth lo hi world.length))
        (List.replicate world.length d)) ∧
    (∀ results, Spmd search (world.map KeyCounter.new)
        (List.replicate world.length (newProg keyMax maxDepth lo hi world.length)) results →
      ∃ d, decompose search keyMax maxDepth world = some d ∧
        results = List.replicate world.length d) := by
  have hne' : world.map KeyCounter.new ≠ [] := by simpa using hne
  constructor
  · intro d hd
    unfold decompose at hd
    rw [hlo, hhi] at hd
    have := spmd_exists search (world.map KeyCounter.new) hne' _ d hd
    simpa using this
  · intro results hs
    obtain ⟨r, h1, h2⟩ := spmd_unique search (world.map KeyCounter.new) hne' _ results hs
      (newProg keyMax maxDepth lo hi world.length) (by simp)
    refine ⟨r, ?_, by simpa using h2⟩
    unfold decompose
    rw [hlo, hhi]
    exact h1

/-! ### The distribution does not matter -/

/-- All requests of a program are for sensible ranges, and its results satisfy `Q`. -/
def Sensible {α : Type} (Q : α → Prop) : Prog α → Prop
  | .ret a => Q a
  | .panic => True
  | .load a b k => a ≤ b + 1 ∧ ∀ v, Sensible Q (k v)

theorem sensible_bind {α β : Type} (P : α → Prop) (Q : β → Prop) (p : Prog α) (f : α → Prog β)
    (hp : Sensible P p) (hf : ∀ a, P a → Sensible Q (f a)) : Sensible Q (p.bind f) := by
  induction p with
  | ret a => exact hf a hp
  | panic => trivial
  | load a b k ih => exact ⟨hp.1, fun v => ih v (hp.2 v)⟩

theorem run_congr {α : Type} (Q : α → Prop) (l1 l2 : Nat → Nat → Option Nat)
    (h : ∀ a b, a ≤ b + 1 → l1 a b = l2 a b) (p : Prog α) (hp : Sensible Q p) :
    run l1 p = run l2 p := by
  induction p with
  | ret a => rfl
  | panic => rfl
  | load a b k ih =>
    unfold run
    rw [h a b hp.1]
    cases l2 a b with
    | none => rfl
    | some v => exact ih v (hp.2 v)

theorem sensible_bisect (target s M : Nat) (fuel lo hi : Nat) (h1 : 2 * (s / 2) ≤ lo)
    (h2 : 2 * (s / 2) ≤ hi) (h3 : lo ≤ M) (h4 : hi ≤ M) :
    Sensible (fun pos => 2 * (s / 2) ≤ pos ∧ pos ≤ M) (bisect target s fuel lo hi) := by
  have hm : 2 * (s / 2) ≤ middle lo hi ∧ middle lo hi ≤ M := by unfold middle; omega
  induction fuel generalizing lo hi with
  | zero =>
    simp only [bisect]
    exact ⟨by omega, fun _ => hm⟩
  | succ fuel ih =>
    simp only [bisect]
    refine ⟨by omega, fun v => ?_⟩
    show Sensible _ (if _ then _ else if _ then _ else _)
    split
    · exact ih _ _ hm.1 h2 hm.2 h4 (by unfold middle at *; omega)
    · split
      · exact ih _ _ h1 hm.1 h3 hm.2 (by unfold middle at *; omega)
      · exact hm

theorem sensible_findSegments (keyMax maxDepth target M : Nat) (n start : Nat) (h : start ≤ M) :
    Sensible (fun segs => ∀ e ∈ segs, e.1 ≤ e.2 + 1)
      (findSegments keyMax maxDepth target M n start) := by
  induction n generalizing start with
  | zero =>
    simp only [findSegments, Sensible]
    intro e he
    simp only [List.mem_singleton] at he
    subst he
    simp only [next]
    split <;> omega
  | succ n ih =>
    simp only [findSegments]
    refine sensible_bind _ _ _ _ (sensible_bisect target start M maxDepth start M (by omega)
      (by omega) h (Nat.le_refl _)) ?_
    intro pos hpos
    refine sensible_bind _ _ _ _ (ih pos hpos.2) ?_
    intro segs hsegs e he
    rcases List.mem_cons.mp he with rfl | he
    · simp only; omega
    · exact hsegs e he

theorem sensible_getLoads (segs : List (Nat × Nat)) (h : ∀ e ∈ segs, e.1 ≤ e.2 + 1) :
    Sensible (fun _ => True) (getLoads segs) := by
  induction segs with
  | nil => trivial
  | cons e es ih =>
    refine ⟨h e (by simp), fun v => ?_⟩
    exact sensible_bind (fun _ => True) _ _ _ (ih (fun x hx => h x (by simp [hx])))
      (fun _ _ => trivial)

theorem sensible_newProg (keyMax maxDepth lo hi n : Nat) (h : lo ≤ hi) :
    Sensible (fun _ => True) (newProg keyMax maxDepth lo hi n) := by
  refine ⟨by unfold next; split <;> omega, fun v => ?_⟩
  split
  · trivial
  · exact sensible_bind _ _ _ _ (sensible_findSegments keyMax maxDepth _ hi _ lo h)
      (fun segs hs => sensible_bind _ _ _ _ (sensible_getLoads segs hs) (fun _ _ => trivial))

/-- **C15 (only the set of keys matters).** Two distributions of the same particle keys over the same
number of ranks, no rank being empty and no rank holding a key twice, give the same decomposition. -/
theorem decomposition_independent_of_distribution {search} (hc : SearchContract search)
    (keyMax maxDepth : Nat) (w1 w2 : List (List Nat)) (hlen : w1.length = w2.length)
    (hperm : w1.flatten.Perm w2.flatten) (h1 : ∀ ks ∈ w1, ks ≠ [] ∧ ks.Nodup)
    (h2 : ∀ ks ∈ w2, ks ≠ [] ∧ ks.Nodup) :
    decompose search keyMax maxDepth w1 = decompose search keyMax maxDepth w2 := by
  by_cases hw : w1 = []
  · have hw2 : w2 = [] := by
      rw [hw] at hlen; exact List.eq_nil_of_length_eq_zero hlen.symm
    rw [hw, hw2]
  · have hw2 : w2 ≠ [] := by
      intro hc; rw [hc] at hlen; exact hw (List.eq_nil_of_length_eq_zero hlen)
    obtain ⟨⟨lo1, a1⟩, ⟨hi1, a2⟩⟩ := global_some w1 hw (fun ks hk => (h1 ks hk).1)
    obtain ⟨⟨lo2, b1⟩, ⟨hi2, b2⟩⟩ := global_some w2 hw2 (fun ks hk => (h2 ks hk).1)
    have s1 := globalMin_spec w1 lo1 a1
    have s2 := globalMin_spec w2 lo2 b1
    have s3 := globalMax_spec w1 hi1 a2
    have s4 := globalMax_spec w2 hi2 b2
    have e1 : lo1 = lo2 := Nat.le_antisymm (s1.2 _ (hperm.mem_iff.mpr s2.1))
      (s2.2 _ (hperm.mem_iff.mp s1.1))
    have e2 : hi1 = hi2 := Nat.le_antisymm (s4.2 _ (hperm.mem_iff.mp s3.1))
      (s3.2 _ (hperm.mem_iff.mpr s4.1))
    unfold decompose
    rw [a1, a2, b1, b2, ← e1, ← e2, ← hlen]
    simp only
    apply run_congr (fun _ => True)
    · intro a b hab
      rw [sumLoads_eq hc w1 (fun ks hk => (h1 ks hk).2) a b hab,
        sumLoads_eq hc w2 (fun ks hk => (h2 ks hk).2) a b hab, cnt_perm hperm]
    · exact sensible_newProg _ _ _ _ _ (s1.2 _ s3.1)

/-! ### Balance -/

theorem chain_getElem (s : Nat) (segs : List (Nat × Nat)) (h : Chain s segs) (i : Nat)
    (e : Nat × Nat) (he : segs[i]? = some e) :
    (i = 0 → e.1 = s) ∧ (∀ j, i = j + 1 → (segs.map Prod.snd)[j]? = some e.1) := by
  induction segs generalizing s i with
  | nil => simp at he
  | cons x xs ih =>
    obtain ⟨a, b⟩ := x
    obtain ⟨h1, h2, h3⟩ := h
    cases i with
    | zero =>
      simp only [List.getElem?_cons_zero, Option.some.injEq] at he
      subst he
      exact ⟨fun _ => h1, fun j hj => by omega⟩
    | succ i =>
      rw [List.getElem?_cons_succ] at he
      obtain ⟨i1, i2⟩ := ih b h3 i he
      refine ⟨fun hc => by omega, ?_⟩
      intro j hj
      have : i = j := by omega
      subst this
      cases i with
      | zero => simp [i1 rfl]
      | succ i =>
        rw [List.map_cons, List.getElem?_cons_succ]
        exact i2 i rfl

theorem countP_lt_of_sorted (cuts : List Nat) (hs : cuts.Pairwise (· ≤ ·)) (i c k : Nat)
    (h : cuts[i]? = some c) (hk : k < c) : cuts.countP (fun x => decide (x ≤ k)) ≤ i := by
  have hb := (index_bounds cuts hs c i h).1
  refine Nat.le_trans ?_ hb
  apply List.countP_mono_left
  intro x _
  simp only [decide_eq_true_eq]
  omega

theorem lt_countP_of_sorted (cuts : List Nat) (hs : cuts.Pairwise (· ≤ ·)) (i c k : Nat)
    (h : cuts[i]? = some c) (hk : c < k) : i + 1 ≤ cuts.countP (fun x => decide (x < k)) := by
  have hb := (index_bounds cuts hs c i h).2
  refine Nat.le_trans hb ?_
  apply List.countP_mono_left
  intro x _
  simp only [decide_eq_true_eq]
  omega

theorem owned_cases {search} (hc : SearchContract search) (s : Nat) (segs : List (Nat × Nat))
    (h : Chain s segs) (i : Nat) (e : Nat × Nat) (he : segs[i]? = some e) (k : Nat) (hk : s ≤ k)
    (hr : owningRank search (segs.map Prod.snd) k = i) :
    (e.1 ≤ k ∧ k < e.2) ∨ (k = e.1 ∧ e.1 = e.2) := by
  have hs := chain_sorted s segs h
  have hcut : (segs.map Prod.snd)[i]? = some e.2 := by simp [he]
  have hb := owningRank_bounds hc _ hs k
  rw [hr] at hb
  have hle : e.1 ≤ k := by
    cases i with
    | zero => rw [(chain_getElem s segs h 0 e he).1 rfl]; exact hk
    | succ j =>
      by_contra hcon
      have := countP_lt_of_sorted _ hs j e.1 k ((chain_getElem s segs h (j + 1) e he).2 j rfl)
        (by omega)
      omega
  have hle2 : k ≤ e.2 := by
    by_contra hcon
    have := lt_countP_of_sorted _ hs i e.2 k hcut (by omega)
    omega
  by_cases hlt : k < e.2
  · exact Or.inl ⟨hle, hlt⟩
  · right
    have hkeq : k = e.2 := by omega
    unfold owningRank at hr
    cases hsr : search (segs.map Prod.snd) k with
    | err j =>
      have := (hc.err _ k j hs hsr).1
      exact absurd (List.mem_of_getElem? (hkeq ▸ hcut)) this
    | ok j =>
      have hj := hc.ok _ k j hs hsr
      rw [hsr] at hr
      simp only [stopIndex] at hr
      have := (chain_getElem s segs h i e he).2 j hr.symm
      rw [this] at hj
      simp only [Option.some.injEq] at hj
      omega

theorem owned_of_strict {search} (hc : SearchContract search) (s : Nat) (segs : List (Nat × Nat))
    (h : Chain s segs) (hnd : (segs.map Prod.snd).Nodup) (i : Nat) (e : Nat × Nat)
    (he : segs[i]? = some e) (k : Nat) (hk1 : e.1 ≤ k) (hk2 : k < e.2) :
    owningRank search (segs.map Prod.snd) k = i := by
  have hs := chain_sorted s segs h
  have hcut : (segs.map Prod.snd)[i]? = some e.2 := by simp [he]
  have hrank : owningRank search (segs.map Prod.snd) k
      = (segs.map Prod.snd).countP (fun x => decide (x ≤ k)) := stopIndex_eq hc _ hs hnd k
  rw [hrank]
  apply Nat.le_antisymm
  · exact countP_lt_of_sorted _ hs i e.2 k hcut hk2
  · cases i with
    | zero => omega
    | succ j =>
      have hj := (chain_getElem s segs h (j + 1) e he).2 j rfl
      have hb := (index_bounds _ hs e.1 j hj).2
      refine Nat.le_trans hb ?_
      apply List.countP_mono_left
      intro x _
      simp only [decide_eq_true_eq]
      omega

theorem strict_of_nonempty (s : Nat) (segs : List (Nat × Nat)) (h : Chain s segs)
    (hlt : ∀ e ∈ segs, e.1 < e.2) : (segs.map Prod.snd).Nodup := by
  have hstr : ∀ (s : Nat) (segs : List (Nat × Nat)), Chain s segs → (∀ e ∈ segs, e.1 < e.2) →
      (segs.map Prod.snd).Pairwise (· < ·) := by
    intro s segs
    induction segs generalizing s with
    | nil => intros; simp
    | cons x xs ih =>
      intro h hlt
      obtain ⟨a, b⟩ := x
      obtain ⟨h1, h2, h3⟩ := h
      rw [List.map_cons, List.pairwise_cons]
      refine ⟨?_, ih b h3 (fun e he => hlt e (by simp [he]))⟩
      intro c hc
      obtain ⟨e, he, rfl⟩ := List.mem_map.mp hc
      have h4 := chain_le b xs h3 e he
      have h5 := hlt e (by simp [he])
      simp only
      omega
  exact (hstr s segs h hlt).imp (fun hab => Nat.ne_of_lt hab)

/-- **C16.** If the key range is not larger than what `MAX_DEPTH` bisection steps resolve, every rank
but the last owns at most the average number of particles and at most two fewer. -/
theorem load_balanced {search} (hc : SearchContract search) (keyMax maxDepth : Nat)
    (world : List (List Nat)) (hne : world ≠ []) (hranks : ∀ ks ∈ world, ks ≠ [])
    (hnd : world.flatten.Nodup) (hkeys : ∀ k ∈ world.flatten, k < keyMax)
    (hrange : ∀ k ∈ world.flatten, ∀ k' ∈ world.flatten, k - k' ≤ 2 ^ maxDepth + 1) :
    ∃ cuts loads, decompose search keyMax maxDepth world = some (cuts, loads) ∧
      ∀ rank, rank + 1 < world.length →
        world.flatten.countP (fun k => decide (owningRank search cuts k = rank))
          ≤ world.flatten.length / world.length ∧
        world.flatten.length / world.length
          ≤ world.flatten.countP (fun k => decide (owningRank search cuts k = rank)) + 2 := by
  obtain ⟨lo, hi, segs, loads, h1, h2, h3, h4, h5, h6, h7, h8, h9⟩ :=
    decompose_spec hc keyMax maxDepth world hne hranks hnd hkeys
  obtain ⟨lo1, lo2⟩ := globalMin_spec world lo h1
  obtain ⟨hi1, hi2⟩ := globalMax_spec world hi h2
  have hbal := h9 (hrange hi hi1 lo lo1)
  refine ⟨_, loads, h3, ?_⟩
  intro rank hrank
  obtain ⟨e, he⟩ : ∃ e, segs[rank]? = some e :=
    ⟨segs[rank]'(by omega), List.getElem?_eq_getElem _⟩
  have hdl : e ∈ segs.dropLast := by
    rw [List.mem_iff_getElem?]
    refine ⟨rank, ?_⟩
    rw [List.getElem?_dropLast, if_pos (by omega)]
    exact he
  obtain ⟨hb1, hb2⟩ := hbal e hdl
  have htpos : 0 < world.flatten.length / world.length := by
    apply Nat.div_pos _ (by omega)
    clear h1 h2 h3 h4 h5 h6 h7 h8 h9 hbal hrank hb1 hb2 lo1 lo2 hi1 hi2 hkeys hrange hnd hne
    induction world with
    | nil => simp
    | cons ks rest ih =>
      have h1 := ih (fun k hk => hranks k (by simp [hk]))
      have h2 := List.length_pos_iff.mpr (hranks ks (by simp))
      rw [List.flatten_cons, List.length_append, List.length_cons]
      omega
  constructor
  · by_cases hee : e.1 = e.2
    · have hsub : world.flatten.countP
          (fun k => decide (owningRank search (segs.map Prod.snd) k = rank))
          ≤ cntO world.flatten e.1 (e.1 + 1) := by
        unfold cntO
        apply List.countP_mono_left
        intro k hk hr
        have hr := of_decide_eq_true hr
        have := owned_cases hc lo segs h5 rank e he k (lo2 k hk) hr
        simp only [decide_eq_true_eq]
        omega
      have := cntO_single world.flatten hnd e.1
      omega
    · refine Nat.le_trans ?_ hb2
      unfold cntO
      apply List.countP_mono_left
      intro k hk hr
      have hr := of_decide_eq_true hr
      have := owned_cases hc lo segs h5 rank e he k (lo2 k hk) hr
      simp only [decide_eq_true_eq]
      omega
  · by_cases ht : world.flatten.length / world.length ≤ 2
    · omega
    · have hstrict : ∀ x ∈ segs, x.1 < x.2 := by
        intro x hx
        have hcase : x ∈ segs.dropLast ∨ segs.getLast? = some x := by
          obtain ⟨j, hj⟩ := List.mem_iff_getElem?.mp hx
          have hjl := (List.getElem?_eq_some_iff.mp hj).1
          by_cases hjj : j < segs.length - 1
          · left
            rw [List.mem_iff_getElem?]
            exact ⟨j, by rw [List.getElem?_dropLast, if_pos hjj]; exact hj⟩
          · right
            rw [List.getLast?_eq_getElem?, show segs.length - 1 = j by omega]
            exact hj
        rcases hcase with hd | hl
        · have hx0 := (hbal x hd).1
          by_contra hcon
          have : cntO world.flatten x.1 x.2 = 0 := by
            unfold cntO
            rw [List.countP_eq_zero]
            intro k _
            simp only [decide_eq_true_eq]
            omega
          omega
        · rw [List.getLast?_map, hl] at h6
          simp only [Option.map_some, Option.some.injEq] at h6
          have hlast : segs[segs.length - 1]? = some x := by
            rw [← List.getLast?_eq_getElem?]; exact hl
          have hg := chain_getElem lo segs h5 (segs.length - 1) x hlast
          by_cases hz : segs.length - 1 = 0
          · omega
          · obtain ⟨j, hj⟩ := Nat.exists_eq_succ_of_ne_zero hz
            have hprev := hg.2 j hj
            rw [List.getElem?_map] at hprev
            obtain ⟨y, hy1, hy2⟩ := Option.map_eq_some_iff.mp hprev
            have hyd : y ∈ segs.dropLast := by
              rw [List.mem_iff_getElem?]
              exact ⟨j, by rw [List.getElem?_dropLast, if_pos (by omega)]; exact hy1⟩
            have := h8 y hyd
            omega
      have hnodup := strict_of_nonempty lo segs h5 hstrict
      refine Nat.le_trans hb1 (Nat.add_le_add_right ?_ 2)
      unfold cntO
      apply List.countP_mono_left
      intro k _ hk
      have hk := of_decide_eq_true hk
      simp only [decide_eq_true_eq]
      exact owned_of_strict hc lo segs h5 hnodup rank e he k hk.1 hk.2

/-! ### Non-vacuity and limits -/

theorem firstMatch_contract : SearchContract firstMatch where
  ok := by
    intro ks k i _ h
    unfold firstMatch at h
    split at h
    · rename_i hm
      simp only [Search.ok.injEq] at h
      subst h
      rw [List.getElem?_eq_getElem (List.idxOf_lt_length_iff.mpr hm)]
      simp
    · simp at h
  err := by
    intro ks k i _ h
    unfold firstMatch at h
    split at h
    · simp at h
    · rename_i hm
      simp only [Search.err.injEq] at h
      exact ⟨hm, h.symm⟩

/-- A contract-conforming search that returns the last matching element. -/
def lastMatch (ks : List Nat) (k : Nat) : Search :=
  if k ∈ ks then .ok (ks.length - 1 - ks.reverse.idxOf k)
  else .err (ks.countP (fun x => decide (x < k)))

theorem lastMatch_contract : SearchContract lastMatch where
  ok := by
    intro ks k i _ h
    unfold lastMatch at h
    split at h
    · rename_i hm
      simp only [Search.ok.injEq] at h
      subst h
      have hm' : k ∈ ks.reverse := List.mem_reverse.mpr hm
      have hlt := List.idxOf_lt_length_iff.mpr hm'
      have hget : ks.reverse[ks.reverse.idxOf k]? = some k := by
        rw [List.getElem?_eq_getElem hlt]; simp
      rw [List.length_reverse] at hlt
      rw [List.getElem?_reverse hlt] at hget
      exact hget
    · simp at h
  err := by
    intro ks k i _ h
    unfold lastMatch at h
    split at h
    · simp at h
    · rename_i hm
      simp only [Search.err.injEq] at h
      exact ⟨hm, h.symm⟩

/-- A decomposition of eight keys on three ranks into two ranks of at most two keys and the rest. -/
example : decompose firstMatch (2 ^ 128 - 1) 42 [[1, 9, 4], [30, 2, 17], [8, 5]]
    = some ([3, 5, 31], [2, 2, 5]) := by decide +kernel

/-- The hypotheses of `decomposition_assigns_existing_rank` and `load_balanced` hold for these keys. -/
example : let world := [[1, 9, 4], [30, 2, 17], [8, 5]]
    SearchContract firstMatch ∧ world ≠ [] ∧ (∀ ks ∈ world, ks ≠ []) ∧ world.flatten.Nodup ∧
    (∀ k ∈ world.flatten, k < 2 ^ 128 - 1) ∧
    (∀ k ∈ world.flatten, ∀ k' ∈ world.flatten, k - k' ≤ 2 ^ 42 + 1) :=
  ⟨firstMatch_contract, by decide, by decide, by decide, by decide, by decide⟩

/-- The hypotheses of `decomposition_independent_of_distribution` hold for two distributions. -/
example : let w1 := [[1, 9, 4], [30, 2, 17], [8, 5]]
    let w2 := [[1], [2, 4, 5, 8, 9, 17], [30]]
    w1.length = w2.length ∧ w1.flatten.Perm w2.flatten ∧ (∀ ks ∈ w1, ks ≠ [] ∧ ks.Nodup) ∧
    (∀ ks ∈ w2, ks ≠ [] ∧ ks.Nodup) := ⟨by decide, by decide, by decide, by decide⟩

/-- The hypotheses of `all_ranks_same_decomposition` hold. -/
example : globalMin [[1, 9, 4], [30, 2, 17], [8, 5]] = some 1 ∧
    globalMax [[1, 9, 4], [30, 2, 17], [8, 5]] = some 30 := by decide

/-- **C16, limit of the balance.** If the keys are clustered more tightly than the bisection resolves
(42 steps for 126-bit keys), one rank can end up with all particles of a cluster: here the average
is five, but the first rank owns ten particles and the second one. -/
theorem clustered_keys_unbalanced :
    ∃ cuts loads, decompose firstMatch (2 ^ 128 - 1) 42
        [[0, 1, 2, 3, 4, 5, 6, 7, 8, 9], [2 ^ 126 - 1]] = some (cuts, loads) ∧
      ([0, 1, 2, 3, 4, 5, 6, 7, 8, 9, 2 ^ 126 - 1].filter
        (fun k => owningRank firstMatch cuts k == 0)).length = 10 := by
  refine ⟨[2 ^ 83 - 1, 2 ^ 126], [10, 1], ?_, ?_⟩ <;> decide +kernel

/-- **C14, repeated keys.** With repeated keys the computation can panic (an underflow in
`load_in_range`), depending on which of several equal elements `binary_search` finds. -/
theorem repeated_keys_can_panic :
    SearchContract lastMatch ∧ decompose lastMatch (2 ^ 128 - 1) 42 [[5, 5, 5], [5, 5]] = none :=
  ⟨lastMatch_contract, by decide +kernel⟩

/-- **C14, empty rank.** A rank without particles makes the computation panic on that rank. -/
theorem empty_rank_panics {search} (keyMax maxDepth : Nat) (w1 w2 : List (List Nat)) :
    decompose search keyMax maxDepth (w1 ++ [] :: w2) = none := by
  have h : globalMin (w1 ++ [] :: w2) = none := by
    induction w1 with
    | nil => rfl
    | cons ks rest ih =>
      obtain ⟨a, b, hr⟩ := List.exists_cons_of_ne_nil (l := rest ++ [] :: w2) (by simp)
      rw [List.cons_append, hr]
      rw [hr] at ih
      rw [globalMin.eq_def]
      simp only
      cases ks.min? with
      | none => rfl
      | some m => simp only [ih]; rfl
  unfold decompose
  rw [h]

end Verif.Decomp
