import Verif.Halo.IterLemmas2

/-! # Halo iteration: termination -/

namespace Verif.Halo

variable {Id W C K S : Type} [DecidableEq Id] [DecidableEq W]
variable [Field K] [LinearOrder K] [IsStrictOrderedRing K]

/-- The number of rounds `j ≤ n` whose radius is at most the last radius. -/
def level (len : K) (n : ℕ) : Option K → ℕ
  | none => 0
  | some r => (List.range (n + 1)).countP fun j => len * increaseFactor ^ j ≤ r

/-- The rounds an undecided tetra still needs at most. -/
def weight (T : Tri S C K) (s : S) (len : K) (n : ℕ) (u : Undecided K) : ℕ :=
  if u.tetra ∈ T.tetras s then n + 2 - level len n u.searchRadius else 1

theorem countP_lt {l : List ℕ} {p q : ℕ → Bool} (h : ∀ a ∈ l, p a = true → q a = true) {b : ℕ} (hb : b ∈ l)
    (hp : p b = false) (hq : q b = true) : l.countP p < l.countP q := by
  induction l with
  | nil => cases hb
  | cons a l ih =>
    have hle : l.countP p ≤ l.countP q := List.countP_mono_left fun x hx => h x (List.mem_cons_of_mem _ hx)
    rw [List.countP_cons, List.countP_cons]
    rcases List.mem_cons.1 hb with rfl | hb
    · rw [hp, hq]
      simp
      omega
    · have := ih (fun x hx => h x (List.mem_cons_of_mem _ hx)) hb
      have h1 := h a List.mem_cons_self
      by_cases h2 : p a = true
      · rw [if_pos h2, if_pos (h1 h2)]
        omega
      · rw [if_neg h2]
        split_ifs <;> omega

omit [IsStrictOrderedRing K] in
theorem level_le (len : K) (n : ℕ) (o : Option K) : level len n o ≤ n + 1 := by
  cases o with
  | none => exact Nat.zero_le _
  | some r => exact (List.countP_le_length).trans (by simp)

theorem one_lt_increaseFactor : (1 : K) < increaseFactor := by
  unfold increaseFactor
  norm_num

theorem level_step {R len : K} (hlen : 0 < len) {o : Option K} {n : ℕ}
    (h : o = none ∨ ∃ j, o = some (len * increaseFactor ^ j) ∧ len * increaseFactor ^ j < R * safetyFactor)
    (hlt : nextRadius R len o < R * safetyFactor) (hn : R * safetyFactor ≤ len * increaseFactor ^ n) :
    level len n o < level len n (some (nextRadius R len o)) := by
  have hpow : ∀ {j k : ℕ}, len * increaseFactor ^ j < len * (increaseFactor : K) ^ k → j < k := by
    intro j k h
    have h1 : (increaseFactor : K) ^ j < increaseFactor ^ k := lt_of_mul_lt_mul_left h hlen.le
    exact (pow_lt_pow_iff_right₀ one_lt_increaseFactor).1 h1
  rcases nextRadius_chain h hlt with ⟨rfl, h1⟩ | ⟨j, rfl, h1⟩
  · rw [h1]
    unfold level
    rw [List.countP_pos_iff]
    exact ⟨0, by simp, by simp⟩
  · rw [h1] at hlt ⊢
    have hj := hpow (lt_of_lt_of_le hlt hn)
    unfold level
    have hmono : len * (increaseFactor : K) ^ j < len * increaseFactor ^ (j + 1) :=
      mul_lt_mul_of_pos_left (pow_lt_pow_right₀ one_lt_increaseFactor (Nat.lt_succ_self j)) hlen
    refine countP_lt (b := j + 1) ?_ (by simp; omega) ?_ (by simp)
    · intro a _ ha
      rw [decide_eq_true_eq] at ha ⊢
      exact ha.trans hmono.le
    · rw [decide_eq_false_iff_not]
      exact not_le_of_gt hmono

theorem sum_filterMap_le {α β : Type} {R : α → β × Option α → Prop} {w : α → ℕ} {l : List α} {l' : List (β × Option α)}
    (h : List.Forall₂ R l l') (hw : ∀ u ∈ l, 1 ≤ w u)
    (hR : ∀ u ∈ l, ∀ x, R u x → ∀ u', x.2 = some u' → w u' < w u) :
    ((l'.filterMap Prod.snd).map w).sum + l.length ≤ (l.map w).sum := by
  induction h with
  | nil => simp
  | @cons u x l l' hr _ ih =>
    have ih := ih (fun v hv => hw v (List.mem_cons_of_mem _ hv)) fun v hv => hR v (List.mem_cons_of_mem _ hv)
    have h1 := hw u List.mem_cons_self
    have h2 := hR u List.mem_cons_self x hr
    obtain ⟨d, o⟩ := x
    cases o with
    | none =>
      simp only [List.filterMap_cons, List.map_cons, List.sum_cons, List.length_cons]
      omega
    | some u' =>
      have := h2 u' rfl
      simp only [List.filterMap_cons, List.map_cons, List.sum_cons, List.length_cons]
      omega

theorem sum_filter_le {α : Type} {w : α → ℕ} (p : α → Bool) (l : List α) (hw : ∀ u ∈ l, 1 ≤ w u) :
    ((l.filter p).map w).sum + l.length ≤ (l.map w).sum + (l.filter p).length := by
  induction l with
  | nil => simp
  | cons u l ih =>
    have ih := ih fun v hv => hw v (List.mem_cons_of_mem _ hv)
    have := hw u List.mem_cons_self
    rw [List.filter_cons]
    split_ifs
    · simp only [List.map_cons, List.sum_cons, List.length_cons]
      omega
    · simp only [List.map_cons, List.sum_cons, List.length_cons]
      omega

omit [IsStrictOrderedRing K] in
theorem one_le_weight (T : Tri S C K) (s : S) (len : K) (n : ℕ) (u : Undecided K) : 1 ≤ weight T s len n u := by
  unfold weight
  have := level_le len n u.searchRadius
  split_ifs <;> omega

/-- A quiet iteration makes progress. -/
theorem quiet_progress {E : Env Id W C K} {T : Tri S C K} {next : S → ℕ} {len : K} (hlen : 0 < len)
    {st : St S Id W K} (h : Inv E T next len st) {n : ℕ}
    (hn : ∀ u ∈ st.undecided, T.radius st.tri u.tetra * safetyFactor ≤ len * increaseFactor ^ n)
    (hne : st.undecided ≠ []) {l : List (SearchData C K × Option (Undecided K))}
    (hl : List.Forall₂ (fun u x => searchOne T st.tri len u = .ok x)
        ((st.undecided.take chunkSize).filter fun u => u.tetra ∈ T.tetras st.tri) l) :
    ((st.undecided.drop chunkSize ++ l.filterMap Prod.snd).map (weight T st.tri len n)).sum <
      (st.undecided.map (weight T st.tri len n)).sum := by
  have h1 := sum_filterMap_le (w := weight T st.tri len n) hl (fun u _ => one_le_weight _ _ _ _ _) (by
    intro u hu x hx u' hu'
    rw [List.mem_filter, decide_eq_true_eq] at hu
    have hmem := List.mem_of_mem_take hu.1
    obtain ⟨d, o, hd, hr, ho⟩ := searchOne_spec T st.tri len u (h.inner u hmem hu.2)
    rw [hd] at hx
    cases hx
    dsimp only at hu'
    rcases ho with ⟨_, ho⟩ | ⟨hlt, ho⟩
    · rw [ho] at hu'
      cases hu'
    · rw [ho] at hu'
      cases hu'
      unfold weight
      dsimp only
      rw [if_pos hu.2, if_pos hu.2]
      rw [hr] at hlt ⊢
      have := level_step hlen (h.chain u hmem hu.2) hlt (hn u hmem)
      have := level_le len n (some (nextRadius (T.radius st.tri u.tetra) len u.searchRadius))
      omega)
  have h2 := sum_filter_le (w := weight T st.tri len n) (fun u => decide (u.tetra ∈ T.tetras st.tri))
    (st.undecided.take chunkSize) fun u _ => one_le_weight _ _ _ _ _
  have h3 : (st.undecided.map (weight T st.tri len n)).sum =
      ((st.undecided.take chunkSize).map (weight T st.tri len n)).sum +
        ((st.undecided.drop chunkSize).map (weight T st.tri len n)).sum := by
    rw [← List.sum_append, ← List.map_append, List.take_append_drop]
  have h4 : 0 < (st.undecided.take chunkSize).length := by
    rw [List.length_take]
    have := List.length_pos_iff.2 hne
    unfold chunkSize
    omega
  rw [List.map_append, List.sum_append]
  omega

theorem iterateN_add (E : Env Id W C K) (T : Tri S C K) (len : K) (a b : ℕ) (st : St S Id W K) :
    iterateN E T len (a + b) st = (iterateN E T len a st).bind (iterateN E T len b) := by
  induction a generalizing st with
  | zero =>
    rw [Nat.zero_add]
    rfl
  | succ a ih =>
    rw [Nat.succ_add]
    show (iterate E T len st).bind (iterateN E T len (a + b)) =
      ((iterate E T len st).bind (iterateN E T len a)).bind (iterateN E T len b)
    cases iterate E T len st with
    | error e => rfl
    | ok st' => exact ih st'

/-- The iteration has an end: a panic of an insertion or a search, or no undecided tetras. -/
def Ends (E : Env Id W C K) (T : Tri S C K) (len : K) (n : ℕ) (st : St S Id W K) : Prop :=
  (∃ e, MayPanic E e ∧ iterateN E T len n st = .error e) ∨
  ∃ st', iterateN E T len n st = .ok st' ∧ st'.undecided = []

/-- As long as nothing is imported. -/
theorem quiet_ends {E : Env Id W C K} (hE : EnvOk E) {T : Tri S C K} {next : S → ℕ} (hT : TriOk T next) {len : K}
    (hlen : 0 < len) {n : ℕ} (m : ℕ) : ∀ st : St S Id W K, Inv E T next len st →
    (∀ u ∈ st.undecided, T.radius st.tri u.tetra * safetyFactor ≤ len * increaseFactor ^ n) →
    (st.undecided.map (weight T st.tri len n)).sum ≤ m →
    ∃ k, Ends E T len k st ∨ ∃ st', iterateN E T len k st = .ok st' ∧ Inv E T next len st' ∧
      st.haloes.length < st'.haloes.length := by
  induction m with
  | zero =>
    intro st h hn hm
    refine ⟨0, Or.inl (Or.inr ⟨st, rfl, ?_⟩)⟩
    by_contra hne
    obtain ⟨u, us, hu⟩ := List.exists_cons_of_ne_nil hne
    rw [hu, List.map_cons, List.sum_cons] at hm
    have := one_le_weight T st.tri len n u
    omega
  | succ m ih =>
    intro st h hn hm
    by_cases hne : st.undecided = []
    · exact ⟨0, Or.inl (Or.inr ⟨st, rfl, hne⟩)⟩
    rcases iterate_spec hE hT h with ⟨e, he, h1⟩ | ⟨st', l, h1, h2, h3, h4, h5⟩
    · exact ⟨1, Or.inl (Or.inl ⟨e, he, by unfold iterateN; rw [h1]; rfl⟩)⟩
    · by_cases hlen' : st'.haloes.length = st.haloes.length
      · obtain ⟨h6, h7⟩ := h5 hlen'
        have hp := quiet_progress hlen h hn hne h3
        obtain ⟨k, hk⟩ := ih st' h2 (by
          intro u hu
          rw [h6]
          rw [h7] at hu
          rcases List.mem_append.1 hu with hu | hu
          · exact hn u (List.mem_of_mem_drop hu)
          · obtain ⟨x, hx, hxu⟩ := List.mem_filterMap.1 hu
            obtain ⟨u0, hu0, hs⟩ := Forall₂.mem_right h3 hx
            rw [List.mem_filter, decide_eq_true_eq] at hu0
            have hmem := List.mem_of_mem_take hu0.1
            obtain ⟨d, o, hd, _, ho⟩ := searchOne_spec T st.tri len u0 (h.inner u0 hmem hu0.2)
            rw [hd] at hs
            cases hs
            dsimp only at hxu
            rcases ho with ⟨_, ho⟩ | ⟨_, ho⟩
            · rw [ho] at hxu
              cases hxu
            · rw [ho] at hxu
              cases hxu
              exact hn u0 hmem) (by rw [h6, h7]; omega)
        have hstep : iterateN E T len (k + 1) st = iterateN E T len k st' := by
          rw [show k + 1 = Nat.succ k from rfl]
          unfold iterateN
          rw [h1]
          cases k <;> rfl
        refine ⟨k + 1, ?_⟩
        unfold Ends at hk ⊢
        rw [hstep]
        rwa [hlen'] at hk
      · refine ⟨1, Or.inr ⟨st', by unfold iterateN; rw [h1]; rfl, h2, ?_⟩⟩
        rw [h4, List.length_append] at hlen' ⊢
        omega

theorem exists_rounds [Archimedean K] {len : K} (hlen : 0 < len) (l : List K) :
    ∃ n, ∀ x ∈ l, x ≤ len * increaseFactor ^ n := by
  induction l with
  | nil => exact ⟨0, by simp⟩
  | cons a l ih =>
    obtain ⟨n, hn⟩ := ih
    obtain ⟨m, hm⟩ := pow_unbounded_of_one_lt (a / len) (one_lt_increaseFactor (K := K))
    have hm' : a ≤ len * increaseFactor ^ m := by
      rw [div_lt_iff₀ hlen] at hm
      rw [mul_comm]
      exact hm.le
    have hmono : ∀ i j : ℕ, i ≤ j → len * (increaseFactor : K) ^ i ≤ len * increaseFactor ^ j := fun i j hij =>
      mul_le_mul_of_nonneg_left (pow_le_pow_right₀ one_lt_increaseFactor.le hij) hlen.le
    refine ⟨max n m, fun x hx => ?_⟩
    rcases List.mem_cons.1 hx with rfl | hx
    · exact hm'.trans (hmono _ _ (le_max_right _ _))
    · exact (hn x hx).trans (hmono _ _ (le_max_left _ _))

theorem haloes_bounded {E : Env Id W C K} {haloes : List (PType Id W)} {caches : ℕ → Cache Id W}
    (h : HaloInv E haloes caches) {F : List (PType Id W)}
    (hF : ∀ r ∈ E.ranks, ∀ d, ∀ i ∈ E.find r d, ptype E r i ∈ F) : haloes.length ≤ F.length := by
  refine (List.subperm_of_subset h.nodup ?_).length_le
  intro x hx
  obtain ⟨r, hr, d, i, hi, _, rfl, _⟩ := h.found x hx
  exact hF r hr d i hi

theorem ends_of_inv [Archimedean K] {E : Env Id W C K} (hE : EnvOk E) {T : Tri S C K} {next : S → ℕ}
    (hT : TriOk T next) {len : K} (hlen : 0 < len) {F : List (PType Id W)}
    (hF : ∀ r ∈ E.ranks, ∀ d, ∀ i ∈ E.find r d, ptype E r i ∈ F) (m : ℕ) :
    ∀ st : St S Id W K, Inv E T next len st → F.length ≤ st.haloes.length + m → ∃ k, Ends E T len k st := by
  induction m with
  | zero =>
    intro st h hm
    obtain ⟨n, hn⟩ := exists_rounds hlen (st.undecided.map fun u => T.radius st.tri u.tetra * safetyFactor)
    obtain ⟨k, hk | ⟨st', _, h2, h3⟩⟩ := quiet_ends hE hT hlen _ st h
      (fun u hu => hn _ (List.mem_map.2 ⟨u, hu, rfl⟩)) (Nat.le_refl _)
    · exact ⟨k, hk⟩
    · have := haloes_bounded h2.halo hF
      omega
  | succ m ih =>
    intro st h hm
    obtain ⟨n, hn⟩ := exists_rounds hlen (st.undecided.map fun u => T.radius st.tri u.tetra * safetyFactor)
    obtain ⟨k, hk | ⟨st', h1, h2, h3⟩⟩ := quiet_ends hE hT hlen _ st h
      (fun u hu => hn _ (List.mem_map.2 ⟨u, hu, rfl⟩)) (Nat.le_refl _)
    · exact ⟨k, hk⟩
    · obtain ⟨k', hk'⟩ := ih st' h2 (by omega)
      refine ⟨k + k', ?_⟩
      unfold Ends at hk' ⊢
      rw [iterateN_add, h1]
      exact hk'

omit [IsStrictOrderedRing K] in
theorem inv_initial (E : Env Id W C K) {T : Tri S C K} {next : S → ℕ} (hT : TriOk T next) (len : K) (s : S) :
    Inv E T next len (initial T s : St S Id W K) := by
  have hmem : ∀ u : Undecided K, u ∈ (initial T s : St S Id W K).undecided ↔
      u.searchRadius = none ∧ u.tetra ∈ T.tetras s ∧ (T.inner s u.tetra).isSome := by
    intro u
    unfold initial
    dsimp only
    rw [List.mem_map]
    unfold shouldBeChecked
    constructor
    · rintro ⟨t, ht, rfl⟩
      rw [List.mem_filter, Bool.and_eq_true] at ht
      exact ⟨rfl, ht.1, ht.2.2⟩
    · rintro ⟨h1, h2, h3⟩
      refine ⟨u.tetra, ?_, by rw [← h1]⟩
      rw [List.mem_filter, Bool.and_eq_true, decide_eq_true_eq]
      exact ⟨h2, h2, h3⟩
  refine ⟨⟨List.nodup_nil, (fun x hx => by cases hx), (fun r _ i _ hk => by cases hk)⟩, ?_, ?_, ?_, ?_⟩
  · intro u hu
    exact hT.lt _ _ ((hmem u).1 hu).2.1
  · intro u hu _
    exact ((hmem u).1 hu).2.2
  · intro t ht hin
    exact Or.inl ⟨⟨t, none⟩, (hmem _).2 ⟨rfl, ht, hin⟩, rfl⟩
  · intro u hu _
    exact Or.inl ((hmem u).1 hu).1

theorem iterateN_inv {E : Env Id W C K} (hE : EnvOk E) {T : Tri S C K} {next : S → ℕ} (hT : TriOk T next) {len : K}
    (n : ℕ) : ∀ st : St S Id W K, Inv E T next len st →
    (∃ e, MayPanic E e ∧ iterateN E T len n st = .error e) ∨
      ∃ st', iterateN E T len n st = .ok st' ∧ Inv E T next len st' := by
  induction n with
  | zero => exact fun st h => Or.inr ⟨st, rfl, h⟩
  | succ n ih =>
    intro st h
    unfold iterateN
    rcases iterate_spec hE hT h with ⟨e, he, h1⟩ | ⟨st', l, h1, h2, _⟩
    · exact Or.inl ⟨e, he, by rw [h1]; rfl⟩
    · rw [h1]
      exact ih st' h2

end Verif.Halo
