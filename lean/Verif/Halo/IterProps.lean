import Verif.Halo.TermLemmas
import Mathlib.Algebra.Order.Ring.Rat
import Mathlib.Algebra.Order.Field.Rat
import Mathlib.Data.Rat.Floor

/-!
# C56: the halo search grows to the full circumsphere and stops

`TriOk`, `EnvOk`, `MayPanic` and `Wanted` are defined in `IterSpec.lean`.  A search which finds one particle with two wrap
types panics in the code (`large_radius_finds_two_images`); these are the searches in `Env.fails`.
-/

namespace Verif.Halo

variable {Id W C K S : Type} [DecidableEq Id] [DecidableEq W]
variable [Field K] [LinearOrder K] [IsStrictOrderedRing K]

/-- The search radius of a tetra with circumradius `R` in the `n`-th search is `min (1.001 R) (len 1.6ⁿ)`. -/
theorem search_radius_growth {R len : K} (hR : 0 ≤ R) (r : ℕ → K) (h0 : r 0 = nextRadius R len none)
    (hs : ∀ n, r (n + 1) = nextRadius R len (some (r n))) (n : ℕ) :
    r n = min (R * (1001 / 1000)) (len * (16 / 10) ^ n) := by
  have hm : (0 : K) ≤ R * (1001 / 1000) := mul_nonneg hR (by norm_num)
  induction n with
  | zero =>
    rw [h0]
    simp [nextRadius, safetyFactor]
  | succ n ih =>
    rw [hs, ih]
    unfold nextRadius safetyFactor increaseFactor
    dsimp only
    rw [min_mul_of_nonneg _ _ (by norm_num : (0 : K) ≤ 16 / 10), min_comm, ← min_assoc, pow_succ]
    rw [min_eq_left (show R * (1001 / 1000) ≤ R * (1001 / 1000) * (16 / 10) by
      nlinarith)]
    rw [mul_assoc]

/-- Hence after finitely many searches the radius is `1.001 R`: at most `n + 1` if `1.001 R ≤ len 1.6ⁿ`. -/
theorem search_radius_reaches [Archimedean K] {R len : K} (hR : 0 ≤ R) (hlen : 0 < len) (r : ℕ → K)
    (h0 : r 0 = nextRadius R len none) (hs : ∀ n, r (n + 1) = nextRadius R len (some (r n))) :
    (∃ n, r n = R * (1001 / 1000)) ∧ ∀ n, R * (1001 / 1000) ≤ len * (16 / 10) ^ n → r n = R * (1001 / 1000) := by
  have h : ∀ n, R * (1001 / 1000) ≤ len * (16 / 10) ^ n → r n = R * (1001 / 1000) := by
    intro n hn
    rw [search_radius_growth hR r h0 hs n, min_eq_left hn]
  refine ⟨?_, h⟩
  obtain ⟨n, hn⟩ := exists_rounds hlen [R * (1001 / 1000)]
  exact ⟨n, h n (hn _ (List.mem_singleton.2 rfl))⟩

/-- The iteration panics only if an insertion into the triangulation or a search does: the assertion that haloes are not
imported twice and the `unwrap` of the vertex of kind `Inner` never fail. -/
theorem halo_iteration_panics {E : Env Id W C K} (hE : EnvOk E) {T : Tri S C K} {next : S → ℕ} (hT : TriOk T next)
    {len : K} {s : S} {n : ℕ} {e : Panic} (h : iterateN E T len n (initial T s : St S Id W K) = .error e) :
    MayPanic E e := by
  rcases iterateN_inv hE hT n _ (inv_initial (Id := Id) (W := W) E hT len s) with ⟨e', he', h1⟩ | ⟨st', h1, _⟩
  · rw [h1] at h
    cases h
    exact he'
  · rw [h1] at h
    cases h

/-- In every state of the iteration no halo is there twice, every halo was found by a search and is needed. -/
theorem haloes_needed {E : Env Id W C K} (hE : EnvOk E) {T : Tri S C K} {next : S → ℕ} (hT : TriOk T next)
    {len : K} {s : S} {n : ℕ} {st : St S Id W K} (h : iterateN E T len n (initial T s) = .ok st) :
    st.haloes.Nodup ∧ ∀ x ∈ st.haloes, ∃ r ∈ E.ranks, ∃ d, ∃ i ∈ E.find r d, Wanted E r i ∧ x = ptype E r i := by
  rcases iterateN_inv hE hT n _ (inv_initial (Id := Id) (W := W) E hT len s) with ⟨e', he', h1⟩ | ⟨st', h1, h2⟩
  · rw [h1] at h
    cases h
  · rw [h1] at h
    cases h
    refine ⟨h2.halo.nodup, fun x hx => ?_⟩
    obtain ⟨r, hr, d, i, hi, hw, he, _⟩ := h2.halo.found x hx
    exact ⟨r, hr, d, i, hi, hw, he⟩

/-- When the iteration ends every image which a search of the full circumsphere (enlarged by the safety
factor) of an existing tetra with an inner vertex would find is in the triangulation. -/
theorem circumspheres_searched {E : Env Id W C K} (hE : EnvOk E) {T : Tri S C K} {next : S → ℕ} (hT : TriOk T next)
    {len : K} {s : S} {n : ℕ} {st : St S Id W K} (h : iterateN E T len n (initial T s) = .ok st)
    (hend : st.undecided = []) {t : ℕ} (ht : t ∈ T.tetras st.tri) (hin : (T.inner st.tri t).isSome)
    {r : ℕ} (hr : r ∈ E.ranks) {i : Image Id W C}
    (hi : i ∈ E.find r ⟨T.centre st.tri t, T.radius st.tri t * (1001 / 1000)⟩) (hw : Wanted E r i) :
    ptype E r i ∈ st.haloes := by
  rcases iterateN_inv hE hT n _ (inv_initial (Id := Id) (W := W) E hT len s) with ⟨e', he', h1⟩ | ⟨st', h1, h2⟩
  · rw [h1] at h
    cases h
  · rw [h1] at h
    cases h
    rcases h2.cover t ht hin with ⟨u, hu, _⟩ | hc
    · rw [hend] at hu
      cases hu
    · exact hc.2 r hr i hi hw

/-- When the iteration ends the search of the full circumsphere of every existing tetra with an inner vertex has
not panicked. -/
theorem circumspheres_search_ok {E : Env Id W C K} (hE : EnvOk E) {T : Tri S C K} {next : S → ℕ} (hT : TriOk T next)
    {len : K} {s : S} {n : ℕ} {st : St S Id W K} (h : iterateN E T len n (initial T s) = .ok st)
    (hend : st.undecided = []) {t : ℕ} (ht : t ∈ T.tetras st.tri) (hin : (T.inner st.tri t).isSome) :
    E.fails ⟨T.centre st.tri t, T.radius st.tri t * (1001 / 1000)⟩ = false := by
  rcases iterateN_inv hE hT n _ (inv_initial (Id := Id) (W := W) E hT len s) with ⟨e', he', h1⟩ | ⟨st', h1, h2⟩
  · rw [h1] at h
    cases h
  · rw [h1] at h
    cases h
    rcases h2.cover t ht hin with ⟨u, hu, _⟩ | hc
    · rw [hend] at hu
      cases hu
    · exact hc.1

/-- A rank which is done is not changed by further iterations (other ranks may still be searching). -/
theorem done_stays {E : Env Id W C K} {T : Tri S C K} {len : K} {st : St S Id W K} (h : st.undecided = []) (n : ℕ) :
    iterateN E T len n st = .ok st := by
  have h1 : iterate E T len st = .ok st := by
    unfold iterate getRadiusSearchData
    rw [h]
    simp [allResults, searchRank, getNewHaloes, Except.map, Except.bind, pure, Except.pure]
    cases st
    have h2 : (E.ranks.flatMap fun _ => ([] : List (ℕ × Image Id W C))) = [] :=
      List.flatMap_eq_nil_iff.2 fun _ _ => rfl
    rw [h2]
    simp_all [insertAll]
  induction n with
  | zero => rfl
  | succ n ih =>
    unfold iterateN
    rw [h1]
    exact ih

/-- The iteration ends if the particles which can be found are finitely many: after some number of rounds no
tetra is undecided, or an insertion or a search has panicked. -/
theorem halo_iteration_ends [Archimedean K] {E : Env Id W C K} (hE : EnvOk E) {T : Tri S C K} {next : S → ℕ}
    (hT : TriOk T next) {len : K} (hlen : 0 < len) (F : List (PType Id W))
    (hF : ∀ r ∈ E.ranks, ∀ d, ∀ i ∈ E.find r d, ptype E r i ∈ F) (s : S) :
    ∃ n, (∃ e, MayPanic E e ∧ iterateN E T len n (initial T s : St S Id W K) = .error e) ∨
      ∃ st, iterateN E T len n (initial T s : St S Id W K) = .ok st ∧ st.undecided = [] :=
  ends_of_inv hE hT hlen hF F.length _ (inv_initial E hT len s) (by simp [initial])

/-! ### A concrete case -/

/-- A toy triangulation on a line: the state is the sorted list of points and the number of insertions; there
is one "tetra", whose index is the number of insertions, centred at the first point with circumradius `10`
minus the number of insertions. -/
def toy : Tri (ℕ × List ℚ) ℚ ℚ where
  tetras s := [s.1]
  radius _ t := 10 - t
  centre s _ := s.2.headD 0
  inner s _ := s.2.head?
  insert s p := some ((s.1 + 1, s.2 ++ [p]), [s.1 + 1])

/-- Two ranks; rank 1 has particles at 1, 2, 9 and 30. -/
def toyEnv : Env ℕ Bool ℚ ℚ where
  ranks := [0, 1]
  own := 0
  periodic w := w
  find r d := if r = 1 then
      ([(1, 1), (2, 2), (3, 9), (4, 30)] : List (ℕ × ℚ)).filterMap fun x =>
        if |x.2 - d.point| ≤ d.radius then some ⟨x.1, false, x.2⟩ else none
    else []

theorem toy_ok : TriOk toy (fun s => s.1 + 1) where
  lt s t ht := by
    have : t = s.1 := List.mem_singleton.1 ht
    omega
  mono s p s' ch h := by
    cases h
    simp
  insert s p s' ch h t ht := by
    cases h
    have : t = s.1 + 1 := List.mem_singleton.1 ht
    subst this
    exact Or.inl ⟨List.mem_singleton.2 rfl, Nat.le_refl _⟩

theorem toyEnv_ok : EnvOk toyEnv where
  ranks := by decide
  wrap w w' h h' := by
    have h1 : w = false := h
    have h2 : w' = false := h'
    rw [h1, h2]

/-- The hypotheses of the theorems are satisfied, and the iteration imports the particles 1 and 2 in the
first rounds, ends after some rounds and does not import the particle at 30. -/
example : (∀ r ∈ toyEnv.ranks, ∀ d, ∀ i ∈ toyEnv.find r d,
      ptype toyEnv r i ∈ [1, 2, 3, 4].map fun j => (PType.remote j 1 : PType ℕ Bool)) := by
  intro r hr d i hi
  have hr' : r = 0 ∨ r = 1 := by simpa [toyEnv] using hr
  rcases hr' with rfl | rfl
  · simp [toyEnv] at hi
  · obtain ⟨x, hx, h⟩ := List.mem_filterMap.1 hi
    split_ifs at h
    cases h
    simp only [List.mem_cons, List.not_mem_nil, or_false] at hx
    rcases hx with rfl | rfl | rfl | rfl <;> simp [ptype, toyEnv]

example : ((iterateN toyEnv toy 1 12 (initial toy (0, [0]))).toOption.map fun st =>
    (st.undecided.length, st.haloes)) =
    some (0, [PType.remote 2 1, PType.remote 1 1]) := by
  decide +kernel

end Verif.Halo
