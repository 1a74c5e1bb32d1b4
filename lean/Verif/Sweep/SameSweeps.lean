import Verif.Sweep.OverlapProps

/-! # The same sweeps on other ranks: lemmas -/

namespace Verif.Sweep

variable {K R C : Type} [Field K] [LinearOrder K] [IsStrictOrderedRing K] [AddCommGroup R] [Module K R]

/-- Two sequences of sweeps of the same cells, which have other names and belong to other ranks; all cells are active. -/
structure SameSweeps (P P' : Sequence K R C) (σ : Id → Id) : Prop where
  numDirs : P'.base.numDirs = P.base.numDirs
  num : P'.num = P.num
  cells : P'.base.cells = P.base.cells.image σ
  inj : ∀ u ∈ P.base.cells, ∀ v ∈ P.base.cells, σ u = σ v → u = v
  active : ∀ k < P.num, ∀ u ∈ P.base.cells, P.level k ≤ P.base.level u
  active' : ∀ k < P.num, ∀ u ∈ P.base.cells, P'.level k ≤ P'.base.level (σ u)
  share : ∀ d < P.base.numDirs, ∀ u ∈ P.base.cells, ∀ v ∈ P.base.cells, share P'.base d (σ u) (σ v) = share P.base d u v
  makePositive : P'.base.makePositive = P.base.makePositive
  source : ∀ u ∈ P.base.cells, P'.base.source (σ u) = P.base.source u
  absorb : ∀ c, ∀ u ∈ P.base.cells, P'.absorb c (σ u) = P.absorb c u
  react : ∀ k < P.num, ∀ u ∈ P.base.cells, P'.react k (σ u) = P.react k u

/-- The cells have the same contents. -/
def SameCells (P : Sequence K R C) (σ : Id → Id) (c c' : Rates R C) : Prop :=
  ∀ v ∈ P.base.cells, (∀ d < P.base.numDirs, c'.inc (σ v) d = c.inc v d ∧ c'.out (σ v) d = c.out v d ∧
    c'.per (σ v) d = c.per v d) ∧ c'.chem (σ v) = c.chem v

variable {P P' : Sequence K R C} {σ : Id → Id}

omit [IsStrictOrderedRing K] [AddCommGroup R] [Module K R] in
theorem act_all {k : Nat} {chem : Id → C} (h : ∀ u ∈ P.base.cells, P.level k ≤ P.base.level u) :
    (P.grid k chem).act = P.base.cells := by
  ext u
  rw [mem_act]
  exact ⟨fun h => h.1, fun hu => ⟨hu, decide_eq_true (h u hu)⟩⟩

omit [IsStrictOrderedRing K] in
theorem SameSweeps.solution (S : SameSweeps P P' σ) {k : Nat} (hk : k < P.num) {c c' : Rates R C} (hc : SameCells P σ c c')
    {inc out : Id → Nat → R} (h : IsSolution (P'.grid k c'.chem) c'.inc c'.out c'.per inc out) :
    IsSolution (P.grid k c.chem) c.inc c.out c.per (fun u => inc (σ u)) (fun u => out (σ u)) := by
  have ha : (P.grid k c.chem).act = P.base.cells := act_all (S.active k hk)
  have ha' : (P'.grid k c'.chem).act = P.base.cells.image σ := by
    rw [← S.cells]
    refine act_all fun u hu => ?_
    rw [S.cells] at hu
    obtain ⟨v, hv, rfl⟩ := Finset.mem_image.1 hu
    exact S.active' k hk v hv
  have hmem : ∀ {v}, v ∈ P.base.cells → σ v ∈ (P'.grid k c'.chem).act := fun hv => by
    rw [ha']
    exact Finset.mem_image_of_mem _ hv
  have hd' : ∀ {d}, d < (P.grid k c.chem).numDirs → d < (P'.grid k c'.chem).numDirs := fun {d} hd => by
    show d < P'.base.numDirs
    rw [S.numDirs]
    exact hd
  refine ⟨?_, ?_, ?_, ?_⟩
  · intro v hv d hd
    rw [ha] at hv ⊢
    have := h.inc_active (σ v) (hmem hv) d (hd' hd)
    rw [ha', Finset.sum_image (fun u hu v hv e => S.inj u hu v hv e), ((hc v hv).1 d hd).1] at this
    show inc (σ v) d = P.base.makePositive _
    rw [this, ← S.makePositive]
    show P'.base.makePositive _ = _
    congr 2
    refine Finset.sum_congr rfl fun u hu => ?_
    rw [((hc u hu).1 d hd).2.1]
    congr 1
    exact S.share d hd u hu v hv
  · intro v hv d hd
    rw [ha] at hv
    have := h.out_active (σ v) (hmem hv) d (hd' hd)
    show out (σ v) d = P.absorb (c.chem v) v (inc (σ v) d + P.base.source v + c.per v d)
    rw [this]
    show P'.absorb (c'.chem (σ v)) (σ v) (inc (σ v) d + P'.base.source (σ v) + c'.per (σ v) d) = _
    rw [S.absorb _ v hv, S.source v hv, (hc v hv).2, ((hc v hv).1 d hd).2.2]
  · intro v hv hna
    rw [ha] at hna
    exact absurd hv hna
  · intro v hv hna
    rw [ha] at hna
    exact absurd hv hna

/-- The results are the same. -/
theorem SameSweeps.waiting (S : SameSweeps P P' σ) (hP : WF P.base) (hP' : WF P'.base) (hnp : NoPeriodic P.base)
    (hnp' : NoPeriodic P'.base) (hac : ∀ k < P.num, Acyclic { P.base with current := P.level k }) {b b' : Rates R C}
    (hb : SameCells P σ b b') :
    ∀ k ≤ P.num, ∀ c c' : Rates R C, P.Waiting b k c → P'.Waiting b' k c' → SameCells P σ c c' := by
  intro k
  induction k with
  | zero =>
    intro _ c c' h h'
    cases h
    cases h'
    exact hb
  | succ k ih =>
    intro hk c c' h h'
    cases h with
    | sweep _ c acts s hw hrun hf =>
      cases h' with
      | sweep _ c' acts' s' hw' hrun' hf' =>
        have hA := ih (by omega) c c' hw hw'
        have hG := grid_wf hP k c.chem
        have hG' := grid_wf hP' k c'.chem
        have h1 := sweep_computes_solution hG hnp hrun.reach hf
        have h2 := sweep_computes_solution hG' hnp' hrun'.reach hf'
        have hu := solution_unique (G := P.grid k c.chem) (hac k (by omega)) h1 (S.solution (by omega) hA h2)
        have hp : s.per = c.per := ((Val.reach hG (Good.init hG _ _ _ _) (Val.init _ rfl (fun _ _ => rfl)) hrun.reach).noPer
          hnp).2.2
        have hp' : s'.per = c'.per := ((Val.reach hG' (Good.init hG' _ _ _ _) (Val.init _ rfl (fun _ _ => rfl))
          hrun'.reach).noPer hnp').2.2
        intro v hv
        have hper : ∀ d < P.base.numDirs, s'.per (σ v) d = s.per v d := by
          intro d hd
          rw [hp, hp']
          exact ((hA v hv).1 d hd).2.2
        refine ⟨fun d hd => ⟨(hu v hv d hd).1.symm, (hu v hv d hd).2.symm, hper d hd⟩, ?_⟩
        show P'.evolve k (σ v).rank s' c'.chem (σ v) = P.evolve k v.rank s c.chem v
        have hact : v ∈ (P.grid k c.chem).act := by rw [act_all (S.active k (by omega))]; exact hv
        have hact' : σ v ∈ (P'.grid k c'.chem).act :=
          mem_act.2 ⟨by
            show σ v ∈ P'.base.cells
            rw [S.cells]
            exact Finset.mem_image_of_mem _ hv, decide_eq_true (S.active' k (by omega) v hv)⟩
        unfold Sequence.evolve
        rw [if_pos ⟨rfl, hact'⟩, if_pos ⟨rfl, hact⟩, S.react k (by omega) v hv, S.numDirs, (hA v hv).2]
        have e1 : (List.range P.base.numDirs).map (s'.inc (σ v)) = (List.range P.base.numDirs).map (s.inc v) :=
          List.map_congr_left fun d hd => (hu v hv d (List.mem_range.1 hd)).1.symm
        have e2 : (List.range P.base.numDirs).map (s'.per (σ v)) = (List.range P.base.numDirs).map (s.per v) :=
          List.map_congr_left fun d hd => hper d (List.mem_range.1 hd)
        rw [e1, e2]

end Verif.Sweep
