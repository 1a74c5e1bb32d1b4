import Verif.Cartesian.Spec
import Mathlib.Tactic.Ring
import Mathlib.Tactic.Linarith
import Mathlib.Tactic.FieldSimp
import Mathlib.Tactic.FinCases
import Mathlib.Tactic.Positivity
import Mathlib.Data.List.Nodup

/-!
# Helper lemmas for the cartesian grid
-/

namespace Verif.Cartesian

open Verif.Geometry (WrapType)

theorem mem_rangeZ (n v : ℤ) : v ∈ rangeZ n ↔ 0 ≤ v ∧ v < n := by
  simp only [rangeZ, List.mem_map, List.mem_range]
  constructor
  · rintro ⟨a, ha, rfl⟩
    constructor
    · exact Int.natCast_nonneg a
    · have : (Int.ofNat a) = (a : ℤ) := rfl
      omega
  · rintro ⟨h0, h1⟩
    exact ⟨v.toNat, by omega, by show ((v.toNat : ℕ) : ℤ) = v; omega⟩

theorem nodup_rangeZ (n : ℤ) : (rangeZ n).Nodup :=
  List.Nodup.map (fun _ _ h => Int.ofNat.inj h) List.nodup_range

theorem contained_iff (p n : IPos) : p.contained n = true ↔
    (0 ≤ p.x ∧ p.x < n.x) ∧ (0 ≤ p.y ∧ p.y < n.y) ∧ (0 ≤ p.z ∧ p.z < n.z) := by
  simp only [IPos.contained, Bool.and_eq_true, decide_eq_true_eq]
  tauto

theorem mem_iterAll (n p : IPos) : p ∈ n.iterAllContained ↔ p.contained n = true := by
  rw [contained_iff]
  simp only [IPos.iterAllContained, List.mem_flatMap, List.mem_map, mem_rangeZ]
  constructor
  · rintro ⟨x, hx, y, hy, z, hz, rfl⟩
    exact ⟨hx, hy, hz⟩
  · rintro ⟨hx, hy, hz⟩
    exact ⟨p.x, hx, p.y, hy, p.z, hz, rfl⟩

theorem nodup_iterAll (n : IPos) : n.iterAllContained.Nodup := by
  unfold IPos.iterAllContained
  rw [List.nodup_flatMap]
  refine ⟨fun x _ => ?_, ?_⟩
  · rw [List.nodup_flatMap]
    refine ⟨fun y _ => ?_, ?_⟩
    · exact List.Nodup.map (fun a b h => by injection h) (nodup_rangeZ _)
    · refine (nodup_rangeZ n.y).imp ?_
      intro a b hab
      simp only [Function.onFun, List.Disjoint, List.mem_map]
      rintro q ⟨z, _, rfl⟩ ⟨z', _, h⟩
      injection h with _ h2 _
      exact hab h2.symm
  · refine (nodup_rangeZ n.x).imp ?_
    intro a b hab
    simp only [Function.onFun, List.Disjoint, List.mem_flatMap, List.mem_map]
    rintro q ⟨y, _, z, _, rfl⟩ ⟨y', _, z', _, h⟩
    injection h with h1 _ _
    exact hab h1.symm

namespace Config
variable (c : Config)

theorem assignIds_spec : ∀ (ps : List IPos) (idx : ℤ → ℕ), ps.Nodup →
    (∀ p ∈ ps, ∃ id, (c.assignIds ps idx).lookup p = some id ∧ id.rank = c.getRank p ∧
      idx id.rank ≤ id.index) ∧
    (∀ p ∈ ps, ∀ q ∈ ps, (c.assignIds ps idx).lookup p = (c.assignIds ps idx).lookup q → p = q) ∧
    (∀ p, p ∉ ps → (c.assignIds ps idx).lookup p = none) := by
  intro ps
  induction ps with
  | nil => intro idx _; simp [assignIds]
  | cons y ps ih =>
    intro idx hn
    rw [List.nodup_cons] at hn
    obtain ⟨i1, i2, i3⟩ := ih (Function.update idx (c.getRank y) (idx (c.getRank y) + 1)) hn.2
    have hy : (c.assignIds (y :: ps) idx).lookup y = some ⟨idx (c.getRank y), c.getRank y⟩ := by
      simp [assignIds]
    have hne : ∀ p, p ≠ y → (c.assignIds (y :: ps) idx).lookup p
        = (c.assignIds ps (Function.update idx (c.getRank y) (idx (c.getRank y) + 1))).lookup p := by
      intro p hp
      have : (p == y) = false := by simpa using hp
      simp [assignIds, List.lookup_cons, this]
    have hlater : ∀ p ∈ ps, (c.assignIds (y :: ps) idx).lookup p
        ≠ some ⟨idx (c.getRank y), c.getRank y⟩ := by
      intro p hp h
      have hpy : p ≠ y := fun e => hn.1 (e ▸ hp)
      rw [hne p hpy] at h
      obtain ⟨id, h1, h2, h3⟩ := i1 p hp
      rw [h] at h1
      cases h1
      simp at h3
    refine ⟨?_, ?_, ?_⟩
    · intro p hp
      rcases List.mem_cons.1 hp with rfl | hp
      · exact ⟨_, hy, rfl, le_rfl⟩
      · have hpy : p ≠ y := fun e => hn.1 (e ▸ hp)
        obtain ⟨id, h1, h2, h3⟩ := i1 p hp
        refine ⟨id, by rw [hne p hpy]; exact h1, h2, ?_⟩
        by_cases hr : id.rank = c.getRank y
        · rw [hr] at h3 ⊢
          simp only [Function.update_self] at h3
          omega
        · rwa [Function.update_of_ne hr] at h3
    · intro p hp q hq h
      rcases List.mem_cons.1 hp with hpe | hp' <;> rcases List.mem_cons.1 hq with hqe | hq'
      · rw [hpe, hqe]
      · rw [hpe, hy] at h
        exact absurd h.symm (hlater q hq')
      · rw [hqe, hy] at h
        exact absurd h (hlater p hp')
      · have hpy : p ≠ y := fun e => hn.1 (e ▸ hp')
        have hqy : q ≠ y := fun e => hn.1 (e ▸ hq')
        rw [hne p hpy, hne q hqy] at h
        exact i2 p hp' q hq' h
    · intro p hp
      rw [List.mem_cons, not_or] at hp
      rw [hne p hp.1]
      exact i3 p hp.2

theorem lookupId_spec (p : IPos) (hp : p.contained c.numCells = true) :
    ∃ id, c.lookupId p = some id ∧ id.rank = c.getRank p := by
  obtain ⟨id, h1, h2, _⟩ := (c.assignIds_spec _ (fun _ => 0) (nodup_iterAll c.numCells)).1 p
    ((mem_iterAll _ _).2 hp)
  exact ⟨id, h1, h2⟩

theorem lookupId_inj (p q : IPos) (hp : p.contained c.numCells = true)
    (hq : q.contained c.numCells = true) (h : c.lookupId p = c.lookupId q) : p = q :=
  (c.assignIds_spec _ (fun _ => 0) (nodup_iterAll c.numCells)).2.1 p ((mem_iterAll _ _).2 hp) q
    ((mem_iterAll _ _).2 hq) h

theorem lookupId_none (p : IPos) (hp : ¬ p.contained c.numCells = true) : c.lookupId p = none :=
  (c.assignIds_spec _ (fun _ => 0) (nodup_iterAll c.numCells)).2.2 p
    (fun h => hp ((mem_iterAll _ _).1 h))

end Config

theorem iterNeighbours_eq (p : IPos) : p.iterNeighbours = (List.finRange 6).map (fun k => step k p) := by
  rfl

theorem wrapComponent_step (v n d : ℤ) (h0 : 0 ≤ v) (h1 : v < n) (hd : d = 1 ∨ d = -1) :
    let w := wrapComponent (v + d) n
    (0 ≤ w.1 ∧ w.1 < n) ∧ wrapComponent (w.1 - d) n = (v, oppWrapType w.2) ∧
      ((0 ≤ v + d ∧ v + d < n) ↔ (0 ≤ w.1 - d ∧ w.1 - d < n)) ∧
      ((0 ≤ v + d ∧ v + d < n) → w.1 = v + d) := by
  dsimp only
  by_cases h2 : v + d ≥ n
  · have hd1 : d = 1 := by omega
    subst hd1
    have hv : v = n - 1 := by omega
    subst hv
    have e : wrapComponent (n - 1 + 1) n = (0, .plus) := by
      unfold wrapComponent
      rw [if_pos (by omega)]
      simp
    have e' : wrapComponent (0 - 1) n = (n - 1, .minus) := by
      unfold wrapComponent
      rw [if_neg (by omega), if_pos (by omega)]
      simp
      omega
    rw [e]
    simp only [e', oppWrapType, true_and]
    omega
  · by_cases h3 : v + d < 0
    · have hd1 : d = -1 := by omega
      subst hd1
      have hv : v = 0 := by omega
      subst hv
      have e : wrapComponent (0 + -1) n = (n - 1, .minus) := by
        unfold wrapComponent
        rw [if_neg (by omega), if_pos (by omega)]
        simp
        omega
      have e' : wrapComponent (n - 1 - -1) n = (0, .plus) := by
        unfold wrapComponent
        rw [if_pos (by omega)]
        simp
      rw [e]
      simp only [e', oppWrapType, true_and]
      omega
    · have e : wrapComponent (v + d) n = (v + d, .noWrap) := by
        unfold wrapComponent
        rw [if_neg (by omega), if_neg (by omega)]
      have e' : wrapComponent (v + d - d) n = (v, .noWrap) := by
        unfold wrapComponent
        rw [if_neg (by omega), if_neg (by omega)]
        simp
      rw [e]
      refine ⟨⟨by dsimp only; omega, by dsimp only; omega⟩, by simpa [oppWrapType] using e', ?_,
        fun _ => rfl⟩
      dsimp only
      constructor
      · intro _
        omega
      · intro _
        omega

theorem wrapComponent_id (v n : ℤ) (h0 : 0 ≤ v) (h1 : v < n) :
    wrapComponent v n = (v, .noWrap) := by
  unfold wrapComponent
  rw [if_neg (by omega), if_neg (by omega)]

theorem conj_eq (a b m : IPos) : (a.contained m = b.contained m) ↔
    (a.contained m = true ↔ b.contained m = true) := Bool.eq_iff_iff

/-- Stepping and wrapping can be undone by the opposite step. -/
theorem wrapped_step (k : Fin 6) (p n : IPos) (hp : p.contained n = true) :
    ((step k p).wrapped n).2.contained n = true ∧
    (step (opp k) ((step k p).wrapped n).2).wrapped n
      = (⟨oppWrapType ((step k p).wrapped n).1.x, oppWrapType ((step k p).wrapped n).1.y,
          oppWrapType ((step k p).wrapped n).1.z⟩, p) ∧
    ((step (opp k) ((step k p).wrapped n).2).contained n = (step k p).contained n) ∧
    ((step k p).contained n = true → ((step k p).wrapped n).2 = step k p) := by
  rw [contained_iff] at hp
  obtain ⟨⟨x0, x1⟩, ⟨y0, y1⟩, ⟨z0, z1⟩⟩ := hp
  have ex := wrapComponent_id _ _ x0 x1
  have ey := wrapComponent_id _ _ y0 y1
  have ez := wrapComponent_id _ _ z0 z1
  obtain ⟨px, py, pz⟩ := p
  obtain ⟨nx, ny, nz⟩ := n
  simp only at *
  fin_cases k
  · obtain ⟨h1, h2, h3, h4⟩ := wrapComponent_step px nx (-1) x0 x1 (Or.inr rfl)
    simp only [sub_neg_eq_add, ← sub_eq_add_neg] at h1 h2 h3 h4
    simp only [step, opp, IPos.wrapped, ex, ey, ez, h2, oppWrapType, contained_iff, conj_eq]
    refine ⟨⟨h1, ⟨y0, y1⟩, z0, z1⟩, trivial, by tauto, ?_⟩
    rintro ⟨h, _, _⟩
    rw [h4 h]
  · obtain ⟨h1, h2, h3, h4⟩ := wrapComponent_step px nx 1 x0 x1 (Or.inl rfl)
    simp only [step, opp, IPos.wrapped, ex, ey, ez, h2, oppWrapType, contained_iff, conj_eq]
    refine ⟨⟨h1, ⟨y0, y1⟩, z0, z1⟩, trivial, by tauto, ?_⟩
    rintro ⟨h, _, _⟩
    rw [h4 h]
  · obtain ⟨h1, h2, h3, h4⟩ := wrapComponent_step py ny (-1) y0 y1 (Or.inr rfl)
    simp only [sub_neg_eq_add, ← sub_eq_add_neg] at h1 h2 h3 h4
    simp only [step, opp, IPos.wrapped, ex, ey, ez, h2, oppWrapType, contained_iff, conj_eq]
    refine ⟨⟨⟨x0, x1⟩, h1, z0, z1⟩, trivial, by tauto, ?_⟩
    rintro ⟨_, h, _⟩
    rw [h4 h]
  · obtain ⟨h1, h2, h3, h4⟩ := wrapComponent_step py ny 1 y0 y1 (Or.inl rfl)
    simp only [step, opp, IPos.wrapped, ex, ey, ez, h2, oppWrapType, contained_iff, conj_eq]
    refine ⟨⟨⟨x0, x1⟩, h1, z0, z1⟩, trivial, by tauto, ?_⟩
    rintro ⟨_, h, _⟩
    rw [h4 h]
  · obtain ⟨h1, h2, h3, h4⟩ := wrapComponent_step pz nz (-1) z0 z1 (Or.inr rfl)
    simp only [sub_neg_eq_add, ← sub_eq_add_neg] at h1 h2 h3 h4
    simp only [step, opp, IPos.wrapped, ex, ey, ez, h2, oppWrapType, contained_iff, conj_eq]
    refine ⟨⟨⟨x0, x1⟩, ⟨y0, y1⟩, h1⟩, trivial, by tauto, ?_⟩
    rintro ⟨_, _, h⟩
    rw [h4 h]
  · obtain ⟨h1, h2, h3, h4⟩ := wrapComponent_step pz nz 1 z0 z1 (Or.inl rfl)
    simp only [step, opp, IPos.wrapped, ex, ey, ez, h2, oppWrapType, contained_iff, conj_eq]
    refine ⟨⟨⟨x0, x1⟩, ⟨y0, y1⟩, h1⟩, trivial, by tauto, ?_⟩
    rintro ⟨_, _, h⟩
    rw [h4 h]

/-! ## Normals and ranks -/

theorem normalize_x (d : ℝ) : (⟨d, 0, 0⟩ : V3).normalize = ⟨d / |d|, 0, 0⟩ := by
  simp [V3.normalize, Real.sqrt_mul_self_eq_abs]

theorem normalize_y (d : ℝ) : (⟨0, d, 0⟩ : V3).normalize = ⟨0, d / |d|, 0⟩ := by
  simp [V3.normalize, Real.sqrt_mul_self_eq_abs]

theorem normalize_z (d : ℝ) : (⟨0, 0, d⟩ : V3).normalize = ⟨0, 0, d / |d|⟩ := by
  simp [V3.normalize, Real.sqrt_mul_self_eq_abs]

theorem normal_eq (c : Config) (hc : c.Valid) (p : IPos) (hp : p.contained c.numCells = true)
    (k : Fin 6) : ((c.toPos (step k p)).sub (c.toPos p)).normalize = unit k := by
  obtain ⟨hx, hy, hz, _, _⟩ := hc
  rw [contained_iff] at hp
  obtain ⟨⟨x0, x1⟩, ⟨y0, y1⟩, ⟨z0, z1⟩⟩ := hp
  have nx : (0 : ℝ) < c.numCells.x := by exact_mod_cast (by omega : 0 < c.numCells.x)
  have ny : (0 : ℝ) < c.numCells.y := by exact_mod_cast (by omega : 0 < c.numCells.y)
  have nz : (0 : ℝ) < c.numCells.z := by exact_mod_cast (by omega : 0 < c.numCells.z)
  have px : 0 < c.side.x / c.numCells.x := div_pos hx nx
  have py : 0 < c.side.y / c.numCells.y := div_pos hy ny
  have pz : 0 < c.side.z / c.numCells.z := div_pos hz nz
  fin_cases k
  · have : (c.toPos (step 0 p)).sub (c.toPos p) = ⟨-(c.side.x / c.numCells.x), 0, 0⟩ := by
      simp only [Config.toPos, IPos.toPos, V3.sub, step, sub_self]
      congr 1
      push_cast
      ring
    show ((c.toPos (step 0 p)).sub (c.toPos p)).normalize = _
    rw [this, normalize_x, abs_neg, abs_of_pos px, neg_div, div_self px.ne']
    rfl
  · have : (c.toPos (step 1 p)).sub (c.toPos p) = ⟨c.side.x / c.numCells.x, 0, 0⟩ := by
      simp only [Config.toPos, IPos.toPos, V3.sub, step, sub_self]
      congr 1
      push_cast
      ring
    show ((c.toPos (step 1 p)).sub (c.toPos p)).normalize = _
    rw [this, normalize_x, abs_of_pos px, div_self px.ne']
    rfl
  · have : (c.toPos (step 2 p)).sub (c.toPos p) = ⟨0, -(c.side.y / c.numCells.y), 0⟩ := by
      simp only [Config.toPos, IPos.toPos, V3.sub, step, sub_self]
      congr 1
      push_cast
      ring
    show ((c.toPos (step 2 p)).sub (c.toPos p)).normalize = _
    rw [this, normalize_y, abs_neg, abs_of_pos py, neg_div, div_self py.ne']
    rfl
  · have : (c.toPos (step 3 p)).sub (c.toPos p) = ⟨0, c.side.y / c.numCells.y, 0⟩ := by
      simp only [Config.toPos, IPos.toPos, V3.sub, step, sub_self]
      congr 1
      push_cast
      ring
    show ((c.toPos (step 3 p)).sub (c.toPos p)).normalize = _
    rw [this, normalize_y, abs_of_pos py, div_self py.ne']
    rfl
  · have : (c.toPos (step 4 p)).sub (c.toPos p) = ⟨0, 0, -(c.side.z / c.numCells.z)⟩ := by
      simp only [Config.toPos, IPos.toPos, V3.sub, step, sub_self]
      congr 1
      push_cast
      ring
    show ((c.toPos (step 4 p)).sub (c.toPos p)).normalize = _
    rw [this, normalize_z, abs_neg, abs_of_pos pz, neg_div, div_self pz.ne']
    rfl
  · have : (c.toPos (step 5 p)).sub (c.toPos p) = ⟨0, 0, c.side.z / c.numCells.z⟩ := by
      simp only [Config.toPos, IPos.toPos, V3.sub, step, sub_self]
      congr 1
      push_cast
      ring
    show ((c.toPos (step 5 p)).sub (c.toPos p)).normalize = _
    rw [this, normalize_z, abs_of_pos pz, div_self pz.ne']
    rfl

theorem getRank_range (c : Config) (hc : c.Valid) (p : IPos) (hp : p.contained c.numCells = true) :
    0 ≤ c.getRank p ∧ c.getRank p < c.worldSize := by
  obtain ⟨hx, _, _, _, hw⟩ := hc
  rw [contained_iff] at hp
  obtain ⟨⟨x0, x1⟩, _, _⟩ := hp
  have nx : (0 : ℝ) < c.numCells.x := by exact_mod_cast (by omega : 0 < c.numCells.x)
  have hW : (0 : ℝ) < c.worldSize := by exact_mod_cast hw
  have e : c.side.x * p.x / c.numCells.x / c.side.x * (c.worldSize : ℝ)
      = p.x / c.numCells.x * c.worldSize := by
    field_simp
  have hp0 : (0 : ℝ) ≤ p.x := by exact_mod_cast x0
  have hp1 : (p.x : ℝ) < c.numCells.x := by exact_mod_cast x1
  unfold Config.getRank Config.rankFunction Config.toPos IPos.toPos
  dsimp only
  rw [e]
  constructor
  · exact Int.floor_nonneg.2 (by positivity)
  · rw [Int.floor_lt]
    have : (p.x : ℝ) / c.numCells.x < 1 := (div_lt_one nx).2 hp1
    calc (p.x : ℝ) / c.numCells.x * c.worldSize < 1 * c.worldSize := by
          exact mul_lt_mul_of_pos_right this hW
      _ = ((c.worldSize : ℤ) : ℝ) := by push_cast; ring

end Verif.Cartesian
