import Verif.Sweep.DeadlockModel
import Verif.Sweep.Props

/-!
# C91: the check for deadlocks
-/

namespace Verif.Sweep

variable {K R : Type} [Field K] [LinearOrder K]

theorem mem_dependencies {G : Grid K R} {r q : Nat} {dep : Dependency} :
    dep ∈ dependencies G r q ↔ ∃ u ∈ G.act, u.rank = r ∧ ∃ f v, (f, Neighbour.remote v) ∈ G.nbrs u ∧ isActive G r v = true ∧
      v.rank = q ∧ dep = dependency G r u v := by
  unfold dependencies
  rw [Finset.mem_biUnion]
  constructor
  · rintro ⟨u, hu, h⟩
    obtain ⟨hu1, hu2⟩ := Finset.mem_filter.1 hu
    rw [List.mem_toFinset, List.mem_filterMap] at h
    obtain ⟨⟨f, nb⟩, he, h⟩ := h
    unfold dependsOn at h
    cases nb with
    | remote v =>
      dsimp only at h
      by_cases hc : isActive G r v = true ∧ v.rank = q
      · rw [if_pos hc] at h
        exact ⟨u, hu1, hu2, f, v, he, hc.1, hc.2, (Option.some.inj h).symm⟩
      · rw [if_neg hc] at h
        simp at h
    | _ => simp at h
  · rintro ⟨u, hu1, hu2, f, v, he, h1, h2, rfl⟩
    refine ⟨u, Finset.mem_filter.2 ⟨hu1, hu2⟩, ?_⟩
    rw [List.mem_toFinset, List.mem_filterMap]
    refine ⟨(f, .remote v), he, ?_⟩
    unfold dependsOn
    exact if_pos ⟨h1, h2⟩

theorem gather_iff {G : Grid K R} {r : Nat} :
    Collective.gather ∈ collectives G r ↔ ∃ u ∈ G.act, u.rank = r := by
  unfold collectives
  by_cases h : (G.act.filter fun id => id.rank = r).card = 0
  · rw [if_pos h]
    rw [Finset.card_eq_zero] at h
    simp only [List.nil_append, List.mem_singleton, reduceCtorEq, false_iff, not_exists, not_and]
    intro u hu hr
    have : u ∈ G.act.filter fun id => id.rank = r := Finset.mem_filter.2 ⟨hu, hr⟩
    rw [h] at this
    exact absurd this (Finset.notMem_empty _)
  · rw [if_neg h]
    simp only [List.cons_append, List.nil_append, List.mem_cons, true_or, true_iff]
    obtain ⟨u, hu⟩ := Finset.card_pos.1 (Nat.pos_of_ne_zero h)
    exact ⟨u, Finset.mem_filter.1 hu⟩

theorem collectives_eq_iff {G : Grid K R} {r q : Nat} :
    collectives G r = collectives G q ↔ ((∃ u ∈ G.act, u.rank = r) ↔ ∃ u ∈ G.act, u.rank = q) := by
  constructor
  · intro h
    rw [← gather_iff, ← gather_iff, h]
  · intro h
    rw [← gather_iff, ← gather_iff] at h
    unfold collectives at h ⊢
    by_cases h1 : (G.act.filter fun id => id.rank = r).card = 0 <;>
      by_cases h2 : (G.act.filter fun id => id.rank = q).card = 0
    · rw [if_pos h1, if_pos h2]
    · rw [if_pos h1, if_neg h2] at h
      simp at h
    · rw [if_neg h1, if_pos h2] at h
      simp at h
    · rw [if_neg h1, if_neg h2]

/-- **A passing check means that the ranks agree.**  If the check passes, every pair of active cells on different ranks is
seen from both sides, and the ranks know the levels of each other's cells. -/
theorem check_sound {G : Grid K R} {s : State R} (h : checkDeadlock G s = .passed) {u v : Id} {f : Face K}
    (hu : u ∈ G.act) (hur : u.rank < G.numRanks) (hvr : v.rank < G.numRanks) (hne : v.rank ≠ u.rank)
    (he : (f, Neighbour.remote v) ∈ G.nbrs u) (hv : isActive G u.rank v = true) :
    v ∈ G.act ∧ (∃ g, (g, Neighbour.remote u) ∈ G.nbrs v) ∧ isActive G v.rank u = true ∧ G.haloLevel u.rank v = G.level v ∧
      G.haloLevel v.rank u = G.level u := by
  unfold checkDeadlock at h
  split at h
  · simp at h
  split at h
  · simp at h
  split at h
  · simp at h
  rename_i hd
  have hsame : dependencies G u.rank v.rank = dependencies G v.rank u.rank := by
    by_contra hno
    exact hd ⟨_, Finset.mem_range.2 hur, _, Finset.mem_range.2 hvr, hne, hno⟩
  have hm : dependency G u.rank u v ∈ dependencies G u.rank v.rank :=
    mem_dependencies.2 ⟨u, hu, rfl, f, v, he, hv, rfl, rfl⟩
  rw [hsame, mem_dependencies] at hm
  obtain ⟨v', hv', hr', g, u', hg, hact, hur', e⟩ := hm
  unfold dependency at e
  have key : v' = v ∧ u' = u ∧ levelSeen G u.rank v = levelSeen G v.rank v ∧ levelSeen G u.rank u = levelSeen G v.rank u := by
    by_cases hlt : v.rank > u.rank
    · rw [if_pos hlt, if_neg (by omega)] at e
      obtain ⟨e1, e2⟩ := Dependency.mk.inj e
      obtain ⟨rfl, e3⟩ := ParticleInfo.mk.inj e1
      obtain ⟨rfl, e4⟩ := ParticleInfo.mk.inj e2
      exact ⟨rfl, rfl, e4, e3⟩
    · rw [if_neg hlt, if_pos (by omega)] at e
      obtain ⟨e1, e2⟩ := Dependency.mk.inj e
      obtain ⟨rfl, e3⟩ := ParticleInfo.mk.inj e1
      obtain ⟨rfl, e4⟩ := ParticleInfo.mk.inj e2
      exact ⟨rfl, rfl, e3, e4⟩
  obtain ⟨rfl, rfl, e1, e2⟩ := key
  unfold levelSeen at e1 e2
  rw [if_neg hne, if_pos rfl] at e1
  rw [if_pos rfl, if_neg hne.symm] at e2
  exact ⟨hv', ⟨g, hg⟩, hact, e1, e2.symm⟩

/-- A cell which is first in some direction can be solved at the beginning. -/
theorem exists_initial_task [IsStrictOrderedRing K] {G : Grid K R} (hG : WF G) (hA : Acyclic G) (hd : 0 < G.numDirs)
    {u : Id} (hu : u ∈ G.act) (miss : Id → Nat → Nat) (inc out per : Id → Nat → R) :
    ∃ r, r < G.numRanks ∧ 0 < ((initState G miss inc out per).todo r).card := by
  obtain ⟨height, hh⟩ := hA
  obtain ⟨v, hv, hmin⟩ := Finset.exists_min_image G.act (height 0) ⟨u, hu⟩
  refine ⟨v.rank, hG.rank_lt v (mem_act.1 hv).1, Multiset.card_pos_iff_exists_mem.2 ⟨⟨v, 0⟩, ?_⟩⟩
  unfold initState
  dsimp only
  rw [Multiset.mem_map]
  refine ⟨(v, 0), ?_, rfl⟩
  refine Finset.mem_filter.2 ⟨Finset.mem_product.2 ⟨Finset.mem_filter.2 ⟨hv, rfl⟩, Finset.mem_range.2 hd⟩, ?_⟩
  dsimp only
  rw [if_pos hv, init_miss hG hv]
  refine Finset.sum_eq_zero fun w hw => ?_
  by_contra hne
  have hpos : 0 < downCount G w v false 0 := Nat.pos_of_ne_zero hne
  unfold downCount at hpos
  rw [List.countP_pos_iff] at hpos
  obtain ⟨e, he, hp⟩ := hpos
  simp only [Bool.and_eq_true, decide_eq_true_eq] at hp
  have hf : Feeds G 0 w v := by
    refine ⟨e, he, hp.1, ?_⟩
    cases hn : e.2 <;> rw [hn] at hp <;> simp [Neighbour.target] at hp ⊢ <;> exact hp.2
  have := hh 0 hd w hw v hv hf
  exact absurd (hmin w hw) (by omega)

/-- **The check passes** if the ranks agree, cells are not arranged in cycles and every rank has something to do. -/
theorem check_passes [IsStrictOrderedRing K] {G : Grid K R} (hG : WF G) (hA : Acyclic G) (hd : 0 < G.numDirs)
    (hact : ∀ r, r < G.numRanks → ∃ u ∈ G.act, u.rank = r) (miss : Id → Nat → Nat) (inc out per : Id → Nat → R) :
    checkDeadlock G (initState G miss inc out per) = .passed := by
  unfold checkDeadlock
  rw [if_neg, if_neg, if_neg]
  · rintro ⟨r, hr, q, hq, hne, h⟩
    refine h (Finset.ext fun dep => ?_)
    have key : ∀ {r q : Nat}, q ≠ r → ∀ {dep}, dep ∈ dependencies G r q → dep ∈ dependencies G q r := by
      intro r q hne dep hdep
      obtain ⟨u, hu, rfl, f, v, he, hv, rfl, rfl⟩ := mem_dependencies.1 hdep
      obtain ⟨hvc, hvr, hl⟩ := hG.remote u (mem_act.1 hu).1 f v (Or.inl he)
      have huc := (mem_act.1 hu).1
      rw [isActive_remote hvr hl] at hv
      have hn : f.normal ∈ normals G u v false := by
        unfold normals
        exact List.mem_filterMap.2 ⟨_, he, if_pos rfl⟩
      have hn' : f.normal.neg.neg ∈ (normals G v u false).map V3.neg := by
        refine List.mem_map.2 ⟨_, (hG.symm u huc v hvc false).mem_iff.2 (List.mem_map.2 ⟨_, hn, rfl⟩), rfl⟩
      obtain ⟨n, hn, -⟩ := List.mem_map.1 hn'
      unfold normals at hn
      obtain ⟨⟨g, nb⟩, hg, h2⟩ := List.mem_filterMap.1 hn
      dsimp only at h2
      have ht : nb.target = some (u, false) := by
        by_contra hno
        rw [if_neg hno] at h2
        simp at h2
      have hnb : nb = .remote u := by
        cases nb <;> simp [Neighbour.target] at ht
        · subst ht
          exact absurd (hG.loc v hvc g _ (Or.inl hg)).2 hvr.symm
        · rw [ht]
      subst hnb
      obtain ⟨-, -, hl'⟩ := hG.remote v hvc g u (Or.inl hg)
      refine mem_dependencies.2 ⟨v, mem_act.2 ⟨hvc, hv⟩, rfl, g, u, hg, ?_, rfl, ?_⟩
      · rw [isActive_remote hvr.symm hl']
        exact (mem_act.1 hu).2
      · have l1 : levelSeen G u.rank u = levelSeen G v.rank u := by
          unfold levelSeen
          rw [if_pos rfl, if_neg hvr.symm, hl']
        have l2 : levelSeen G u.rank v = levelSeen G v.rank v := by
          unfold levelSeen
          rw [if_pos rfl, if_neg hvr, hl]
        unfold dependency
        rw [l1, l2]
        by_cases hlt : v.rank > u.rank
        · rw [if_pos hlt, if_neg (by omega)]
        · rw [if_neg hlt, if_pos (by omega)]
    exact ⟨key hne, key hne.symm⟩
  · rintro ⟨⟨r, hr, hg⟩, h0⟩
    obtain ⟨u, hu, -⟩ := gather_iff.1 hg
    obtain ⟨q, hq, hpos⟩ := exists_initial_task hG hA hd hu miss inc out per
    have := (Finset.sum_eq_zero_iff.1 h0) q (Finset.mem_range.2 hq)
    omega
  · rintro ⟨r, hr, q, hq, h⟩
    refine h (collectives_eq_iff.2 ⟨fun _ => hact q (Finset.mem_range.1 hq), fun _ => hact r (Finset.mem_range.1 hr)⟩)

/-- **The check hangs**, contrary to its purpose, on every grid on which some rank has no active cell while another one has
some. -/
theorem check_hangs {G : Grid K R} {s : State R} {r q : Nat} (hr : r < G.numRanks) (hq : q < G.numRanks)
    (hidle : ∀ u ∈ G.act, u.rank ≠ r) (hbusy : ∃ u ∈ G.act, u.rank = q) : checkDeadlock G s = .hangs := by
  unfold checkDeadlock
  refine if_pos ⟨r, Finset.mem_range.2 hr, q, Finset.mem_range.2 hq, fun h => ?_⟩
  obtain ⟨u, hu, e⟩ := (collectives_eq_iff.1 h).2 hbusy
  exact hidle u hu e

end Verif.Sweep
