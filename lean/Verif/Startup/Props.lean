import Verif.Startup.Lemmas

/-!
# C102: from the input files to the ranks
-/

namespace Verif.Startup

open Verif.Geometry Verif.ExchangeData Verif.FileDist Verif.DataByRank

variable {V : Type} {S : Setup V} {m N : ℕ} {files : List (List (Row V))}

theorem keyOf_comps (hm : 0 < m) (row : Row V) : S.keyOf (comps m row) = key S.lo S.hi (S.place (row 0)) := by
  simp [Setup.keyOf, Setup.position, comps, hm]

theorem position_comps (hm : 0 < m) (row : Row V) : S.position (comps m row) = some (S.place (row 0)) := by
  simp [Setup.position, comps, hm]

/-- The stages after reading. -/
theorem startup_eq (hm : 0 < m) (hN : 0 < N) : ∃ parts : List (List (Row V)), parts.length = N ∧
    parts.flatten = files.flatten ∧
    (∀ (r : ℕ) (p : List (Row V)), parts[r]? = some p → p.length =
      if r + 1 < N then files.flatten.length / N else files.flatten.length - files.flatten.length / N * (N - 1)) ∧
    ∃ keyFn : Row V → ℕ, (∀ row, key S.lo S.hi (S.place (row 0)) = some (keyFn row) ∧ keyFn row < 2 ^ 126) ∧
    ((∀ row ∈ files.flatten, S.Contains (S.place (row 0))) →
      S.startup N (columns m files) = match Decomp.decompose S.search (2 ^ 128 - 1) 42 (parts.map fun p => p.map keyFn) with
        | none => none
        | some (cuts, _) => exchangeStage m (S.owner cuts) (fun r => ((parts.map (entities m)).getD r []).length)
            (parts.map (entities m))) ∧
    ((¬ ∀ row ∈ files.flatten, S.Contains (S.place (row 0))) → S.startup N (columns m files) = none) ∧
    ((∀ row ∈ files.flatten, S.Contains (S.place (row 0))) → S.decompose N (columns m files) =
      (Decomp.decompose S.search (2 ^ 128 - 1) 42 (parts.map fun p => p.map keyFn)).map fun d => (parts.map (entities m), d.1)) := by
  obtain ⟨parts, h1, h2, h3, h4⟩ := read_all (files := files) hm hN
  have hk := fun row : Row V => key_some S.lo S.hi (S.place (row 0))
  choose keyFn hkey using hk
  have hchecked : S.checked (parts.map (entities m)) = true ↔ ∀ row ∈ files.flatten, S.Contains (S.place (row 0)) := by
    unfold Setup.checked
    rw [List.all_eq_true, ← h2]
    constructor
    · intro h row hrow
      obtain ⟨p, hp, hr⟩ := List.mem_flatten.1 hrow
      have := h _ (List.mem_map.2 ⟨p, hp, rfl⟩)
      rw [List.all_eq_true] at this
      have hc : comps m row ∈ (entities m p).map Prod.snd := by
        rw [entities_comps]
        exact List.mem_map.2 ⟨row, hr, rfl⟩
      obtain ⟨e, he, hec⟩ := List.mem_map.1 hc
      have h5 := this e he
      rw [@decide_eq_true_eq _ (_), hec, position_comps hm] at h5
      obtain ⟨x, hx, h6⟩ := h5
      rwa [← Option.some.inj hx] at h6
    · intro h ps hps
      obtain ⟨p, hp, rfl⟩ := List.mem_map.1 hps
      rw [List.all_eq_true]
      intro e he
      rw [@decide_eq_true_eq _ (_)]
      have hc : e.2 ∈ (entities m p).map Prod.snd := List.mem_map.2 ⟨e, he, rfl⟩
      rw [entities_comps] at hc
      obtain ⟨row, hr, hec⟩ := List.mem_map.1 hc
      rw [← hec, position_comps hm]
      exact ⟨_, rfl, h row (List.mem_flatten.2 ⟨p, hp, hr⟩)⟩
  have hdec : (∀ row ∈ files.flatten, S.Contains (S.place (row 0))) → S.decompose N (columns m files) =
      (Decomp.decompose S.search (2 ^ 128 - 1) 42 (parts.map fun p => p.map keyFn)).map fun d => (parts.map (entities m), d.1) := by
    intro hc
    unfold Setup.decompose
    rw [h4]
    simp only
    rw [if_pos (hchecked.2 hc)]
    have hkeys : (parts.map (entities m)).mapM (fun ps => ps.mapM fun p => S.keyOf p.2) = some (parts.map fun p => p.map keyFn) := by
      rw [List.mapM_map]
      refine mapM_some _ _ _ fun p _ => ?_
      show (entities m p).mapM (fun p => S.keyOf p.2) = _
      unfold entities
      rw [List.mapM_map, mapM_some _ (fun e => keyFn e.1)]
      · rw [← List.zipIdx_map_fst 0 p, List.map_map]
        simp only [List.zipIdx_map_fst]
        rfl
      · intro e _
        show S.keyOf (comps m e.1) = _
        rw [keyOf_comps hm, (hkey e.1).1]
    rw [hkeys]
  refine ⟨parts, h1, h2, h3, keyFn, hkey, fun hc => ?_, fun hc => ?_, hdec⟩
  · unfold Setup.startup
    rw [hdec hc]
    have hl : (columns m files).length = m := by simp [columns]
    rw [hl]
    cases Decomp.decompose S.search (2 ^ 128 - 1) 42 (parts.map fun p => p.map keyFn) <;> rfl
  · unfold Setup.startup Setup.decompose
    rw [h4]
    simp only
    rw [if_neg fun h => hc (hchecked.1 h)]

theorem entities_ok (m : ℕ) (parts : List (List (Row V))) :
    (∀ ps ∈ parts.map (entities m), (ps.map Prod.fst).Nodup) ∧
    (∀ ps ∈ parts.map (entities m), ∀ p ∈ ps, ∀ c, (p.2 c).isSome ↔ c < m) ∧
    (∀ r ps, (parts.map (entities m))[r]? = some ps → ∀ p ∈ ps, p.1 < ((parts.map (entities m)).getD r []).length) := by
  refine ⟨?_, ?_, ?_⟩
  · intro ps hps
    obtain ⟨p, -, rfl⟩ := List.mem_map.1 hps
    rw [entities_ids]
    exact List.nodup_range
  · intro ps hps e he c
    obtain ⟨p, -, rfl⟩ := List.mem_map.1 hps
    have hc : e.2 ∈ (entities m p).map Prod.snd := List.mem_map.2 ⟨e, he, rfl⟩
    rw [entities_comps] at hc
    obtain ⟨row, -, hec⟩ := List.mem_map.1 hc
    rw [← hec]
    unfold comps
    split <;> simp_all
  · intro r ps hps e he
    rw [List.getD_eq_getElem?_getD, hps, Option.getD_some]
    rw [List.getElem?_map] at hps
    obtain ⟨p, -, rfl⟩ := Option.map_eq_some_iff.1 hps
    have hc : e.1 ∈ (entities m p).map Prod.fst := List.mem_map.2 ⟨e, he, rfl⟩
    rw [entities_ids, List.mem_range] at hc
    simpa [entities] using hc

/-- **Nothing is lost.**  If the startup on `N` ranks does not panic, every row of the input files is a particle with all its
values on exactly one rank, all positions are in the box, particles with the same key are on the same rank, and every rank has
different entities for its particles. -/
theorem startup_keeps_rows [Inhabited V] (hm : 0 < m) {world : List (Particles V)}
    (h : S.startup N (columns m files) = some world) :
    world.length = N ∧ (world.flatten.map Prod.snd).Perm (files.flatten.map (comps m)) ∧
    (∀ row ∈ files.flatten, S.Contains (S.place (row 0))) ∧
    (∀ ps ∈ world, (ps.map Prod.fst).Nodup) ∧
    ∀ (r r' : ℕ) (ps ps' : Particles V), world[r]? = some ps → world[r']? = some ps' → ∀ p ∈ ps, ∀ p' ∈ ps',
      S.keyOf p.2 = S.keyOf p'.2 → r = r' := by
  rcases Nat.eq_zero_or_pos N with rfl | hN
  · simp [Setup.startup, Setup.decompose, Setup.checked, Decomp.decompose, Decomp.globalMin] at h
  obtain ⟨parts, h1, h2, h3, keyFn, hkey, h4, h5, -⟩ := startup_eq (S := S) (files := files) hm hN
  by_cases hc : ∀ row ∈ files.flatten, S.Contains (S.place (row 0))
  · rw [h4 hc] at h
    cases hd : Decomp.decompose S.search (2 ^ 128 - 1) 42 (parts.map fun p => p.map keyFn) with
    | none => rw [hd] at h; simp at h
    | some cl =>
      obtain ⟨cuts, loads⟩ := cl
      rw [hd] at h
      simp only at h
      have hown := exchange_owner h
      obtain ⟨a1, a2, a3⟩ := entities_ok m parts
      obtain ⟨w1, e1, b1, b2⟩ := exchange_moves_particles_to_owners m (S.owner cuts) _ (parts.map (entities m)) hown a1 a2 a3
      rw [h] at e1
      obtain rfl := Option.some.inj e1
      obtain ⟨w1, e1, b3⟩ := exchange_preserves_particles m (S.owner cuts) _ (parts.map (entities m)) hown a1 a2 a3
      rw [h] at e1
      obtain rfl := Option.some.inj e1
      refine ⟨by simpa [h1] using b1, ?_, hc, ?_, ?_⟩
      · rw [entities_flatten, h2] at b3
        exact b3
      · intro ps hps
        obtain ⟨r, hr⟩ := List.getElem?_of_mem hps
        exact (b2 r ps hr).2
      · have hrank : ∀ (r : ℕ) (ps : Particles V), world[r]? = some ps → ∀ p ∈ ps, S.owner cuts p.2 = r := by
          intro r ps hr p hp
          have : p.2 ∈ ps.map Prod.snd := List.mem_map.2 ⟨p, hp, rfl⟩
          rw [(b2 r ps hr).1.mem_iff, List.mem_filter, decide_eq_true_eq] at this
          exact this.2
        intro r r' ps ps' hr hr' p hp p' hp' he
        rw [← hrank r ps hr p hp, ← hrank r' ps' hr' p' hp']
        unfold Setup.owner
        rw [he]
  · rw [h5 hc] at h
    simp at h

theorem pairwise_keys (hbox : ∀ i, S.lo i < S.hi i) (hin : ∀ row ∈ files.flatten, S.Contains (S.place (row 0)))
    (hap : files.flatten.Pairwise fun a b => S.Apart (S.place (a 0)) (S.place (b 0))) {keyFn : Row V → ℕ}
    (hkey : ∀ row, key S.lo S.hi (S.place (row 0)) = some (keyFn row) ∧ keyFn row < 2 ^ 126) :
    (files.flatten.map keyFn).Nodup := by
  rw [List.Nodup, List.pairwise_map]
  refine hap.imp_of_mem fun {a b} ha hb hab he => ?_
  refine key_ne hbox (hin a ha) (hin b hb) hab ?_
  rw [(hkey a).1, (hkey b).1, he]

theorem parts_nonempty {parts : List (List (Row V))} (hN : 0 < N) (hrows : N ≤ files.flatten.length)
    (h3 : ∀ (r : ℕ) (p : List (Row V)), parts[r]? = some p → p.length =
      if r + 1 < N then files.flatten.length / N else files.flatten.length - files.flatten.length / N * (N - 1))
    (keyFn : Row V → ℕ) : ∀ ks ∈ parts.map (fun p => p.map keyFn), ks ≠ [] := by
  have hq : 0 < files.flatten.length / N := Nat.div_pos hrows hN
  intro ks hks he
  obtain ⟨p, hp, rfl⟩ := List.mem_map.1 hks
  have hp0 : p.length = 0 := by simpa using congrArg List.length he
  obtain ⟨r, hr⟩ := List.getElem?_of_mem hp
  have hl := h3 r p hr
  rw [hp0] at hl
  have hmul : files.flatten.length / N * N ≤ files.flatten.length := Nat.div_mul_le_self _ _
  split at hl
  · omega
  · have : files.flatten.length / N * (N - 1) + files.flatten.length / N = files.flatten.length / N * N := by
      rw [← Nat.mul_succ, Nat.succ_eq_add_one, Nat.sub_add_cancel hN]
    omega

/-- **The startup works.**  If there are at least as many rows as ranks, all positions are in the box and no two of them are in
the same cell of the grid of the keys, then there is no panic, and the ranks have consecutive ranges of keys. -/
theorem startup_distributes [Inhabited V] (hs : Decomp.SearchContract S.search) (hm : 0 < m) (hN : 0 < N)
    (hrows : N ≤ files.flatten.length) (hbox : ∀ i, S.lo i < S.hi i)
    (hin : ∀ row ∈ files.flatten, S.Contains (S.place (row 0)))
    (hap : files.flatten.Pairwise fun a b => S.Apart (S.place (a 0)) (S.place (b 0))) :
    ∃ world, S.startup N (columns m files) = some world ∧
      ∀ (r r' : ℕ) (ps ps' : Particles V), world[r]? = some ps → world[r']? = some ps' → ∀ p ∈ ps, ∀ p' ∈ ps',
        ∀ k k', S.keyOf p.2 = some k → S.keyOf p'.2 = some k' → k ≤ k' → r ≤ r' := by
  obtain ⟨parts, h1, h2, h3, keyFn, hkey, h4, h5, -⟩ := startup_eq (S := S) (files := files) hm hN
  have hflat : (parts.map fun p => p.map keyFn).flatten = files.flatten.map keyFn := by
    rw [← List.map_flatten, h2]
  have hne := parts_nonempty hN hrows h3 keyFn
  obtain ⟨cuts, loads, e1, e2, e3, e4, -⟩ := Decomp.decomposition_assigns_existing_rank hs (2 ^ 128 - 1) 42
    (parts.map fun p => p.map keyFn) (by rw [ne_eq, List.map_eq_nil_iff]; rintro rfl; simp at h1; omega) hne
    (by rw [hflat]; exact pairwise_keys hbox hin hap hkey)
    (by
      rw [hflat]
      intro k hk
      obtain ⟨row, -, rfl⟩ := List.mem_map.1 hk
      exact lt_trans (hkey row).2 (by norm_num))
  have howner : ∀ row, S.owner cuts (comps m row) = Decomp.owningRank S.search cuts (keyFn row) := by
    intro row
    unfold Setup.owner
    rw [keyOf_comps hm, (hkey row).1, Option.getD_some]
  obtain ⟨a1, a2, a3⟩ := entities_ok m parts
  have hown : ∀ ps ∈ parts.map (entities m), ∀ p ∈ ps, S.owner cuts p.2 < (parts.map (entities m)).length := by
    intro ps hps e he
    obtain ⟨p, hp, rfl⟩ := List.mem_map.1 hps
    have hc : e.2 ∈ (entities m p).map Prod.snd := List.mem_map.2 ⟨e, he, rfl⟩
    rw [entities_comps] at hc
    obtain ⟨row, hr, hec⟩ := List.mem_map.1 hc
    rw [← hec, howner]
    have := e3 (keyFn row) (by rw [hflat, ← h2]; exact List.mem_map.2 ⟨row, List.mem_flatten.2 ⟨p, hp, hr⟩, rfl⟩)
    simpa using this
  obtain ⟨world, c1, c2, c3⟩ := exchange_moves_particles_to_owners m (S.owner cuts)
    (fun r => ((parts.map (entities m)).getD r []).length) (parts.map (entities m)) hown a1 a2 a3
  have hst : S.startup N (columns m files) = some world := by
    rw [h4 hin, e1]
    exact c1
  refine ⟨world, hst, ?_⟩
  have hrank : ∀ (r : ℕ) (ps : Particles V), world[r]? = some ps → ∀ p ∈ ps, S.owner cuts p.2 = r := by
    intro r ps hr p hp
    have : p.2 ∈ ps.map Prod.snd := List.mem_map.2 ⟨p, hp, rfl⟩
    rw [(c3 r ps hr).1.mem_iff, List.mem_filter, decide_eq_true_eq] at this
    exact this.2
  intro r r' ps ps' hr hr' p hp p' hp' k k' hk hk' hle
  rw [← hrank r ps hr p hp, ← hrank r' ps' hr' p' hp']
  unfold Setup.owner
  rw [hk, hk', Option.getD_some, Option.getD_some]
  exact e4 k k' hle

/-- **Too few rows.**  With fewer rows than ranks the startup panics. -/
theorem startup_panics_with_few_rows (hm : 0 < m) (hrows : files.flatten.length < N) : S.startup N (columns m files) = none := by
  obtain ⟨parts, h1, h2, h3, keyFn, hkey, h4, h5, -⟩ := startup_eq (S := S) (N := N) (files := files) hm (by omega)
  by_cases hc : ∀ row ∈ files.flatten, S.Contains (S.place (row 0))
  · rw [h4 hc]
    have hd : Decomp.decompose S.search (2 ^ 128 - 1) 42 (parts.map fun p => p.map keyFn) = none := by
      have hq : files.flatten.length / N = 0 := Nat.div_eq_of_lt hrows
      have hmem : ∃ ks ∈ parts.map (fun p => p.map keyFn), ks = [] := by
        have hr : 0 < parts.length := by omega
        have hl := h3 0 parts[0] (List.getElem?_eq_getElem hr)
        refine ⟨parts[0].map keyFn, List.mem_map.2 ⟨_, List.getElem_mem hr, rfl⟩, ?_⟩
        rw [List.map_eq_nil_iff]
        apply List.eq_nil_of_length_eq_zero
        rw [hl]
        split
        · exact hq
        · omega
      have hmin : ∀ w : List (List ℕ), (∃ ks ∈ w, ks = []) → Decomp.globalMin w = none := by
        intro w
        induction w with
        | nil => simp
        | cons ks w ih =>
          rintro ⟨l, hl, rfl⟩
          rcases List.mem_cons.1 hl with rfl | hl
          · cases w <;> rfl
          · unfold Decomp.globalMin
            cases hk : ks.min? with
            | none => simp
            | some a =>
              cases w with
              | nil => simp at hl
              | cons x xs =>
                simp only
                rw [ih ⟨_, hl, rfl⟩]
                rfl
      unfold Decomp.decompose
      rw [hmin _ hmem]
    rw [hd]
  · exact h5 hc

/-- **Outside of the box.**  With a position outside of the box the startup panics. -/
theorem startup_panics_outside (hm : 0 < m) (row : Row V) (hrow : row ∈ files.flatten) (hout : ¬ S.Contains (S.place (row 0))) :
    S.startup N (columns m files) = none := by
  rcases Nat.eq_zero_or_pos N with rfl | hN
  · simp [Setup.startup, Setup.decompose, Setup.checked, Decomp.decompose, Decomp.globalMin]
  obtain ⟨parts, h1, h2, h3, keyFn, hkey, h4, h5, -⟩ := startup_eq (S := S) (N := N) (files := files) hm hN
  exact h5 fun h => hout (h row hrow)

theorem numEntities_eq (files : List (List V)) (hN : 0 < N) (r : ℕ) (hr : r < N) : numEntities files N r =
    some (if r + 1 < N then files.flatten.length / N else files.flatten.length - files.flatten.length / N * (N - 1)) := by
  obtain ⟨parts, h1, -, h3, h4⟩ := read_parts files N hN
  have hr' : r < parts.length := by omega
  have e := (h4 V id r _ (List.getElem?_eq_getElem hr')).2
  rw [h3 r _ (List.getElem?_eq_getElem hr')] at e
  simpa using e

/-- **Datasets of different lengths.**  If two datasets do not have the same number of rows in all files together, the startup panics
(on some rank, whatever their number). -/
theorem startup_panics_with_unequal_datasets (columns : List (List (List V))) (c c' : List (List V)) (hc : c ∈ columns) (hc' : c' ∈ columns)
    (hne : c.flatten.length ≠ c'.flatten.length) : S.startup N columns = none := by
  rcases Nat.eq_zero_or_pos N with rfl | hN
  · simp [Setup.startup, Setup.decompose, Setup.checked, Decomp.decompose, Decomp.globalMin]
  have hrank : ∃ r < N, numEntities c N r ≠ numEntities c' N r := by
    by_cases hq : c.flatten.length / N = c'.flatten.length / N
    · refine ⟨N - 1, by omega, ?_⟩
      rw [numEntities_eq c hN _ (by omega), numEntities_eq c' hN _ (by omega), if_neg (by omega), if_neg (by omega), hq]
      have h1 : c.flatten.length / N * (N - 1) ≤ c.flatten.length :=
        (Nat.mul_le_mul_left _ (Nat.sub_le _ _)).trans (Nat.div_mul_le_self _ _)
      have h2 : c'.flatten.length / N * (N - 1) ≤ c'.flatten.length :=
        (Nat.mul_le_mul_left _ (Nat.sub_le _ _)).trans (Nat.div_mul_le_self _ _)
      rw [hq] at h1
      intro h
      have := Option.some.inj h
      omega
    · rcases Nat.lt_or_eq_of_le hN with h1 | rfl
      swap
      · refine ⟨0, hN, ?_⟩
        rw [numEntities_eq c hN _ hN, numEntities_eq c' hN _ hN, if_neg (by omega), if_neg (by omega)]
        intro h
        exact hne (by simpa using Option.some.inj h)
      refine ⟨0, hN, ?_⟩
      rw [numEntities_eq c hN _ hN, numEntities_eq c' hN _ hN, if_pos (by omega), if_pos (by omega)]
      intro h
      exact hq (Option.some.inj h)
  obtain ⟨r, hr, hdiff⟩ := hrank
  have hspawn : spawn columns N r = none := by
    unfold spawn
    cases columns with
    | nil => simp at hc
    | cons d ds =>
      simp only
      cases hn : numEntities d N r with
      | none => rfl
      | some n =>
        simp only
        rw [if_neg]
        intro hall
        rw [List.all_eq_true] at hall
        have e1 := hall c hc
        have e2 := hall c' hc'
        rw [decide_eq_true_eq] at e1 e2
        exact hdiff (e1.trans e2.symm)
  have hread : readRank columns N r = none := by
    unfold readRank
    rw [hspawn]
  have hnone : ∀ l : List ℕ, r ∈ l → l.mapM (readRank columns N) = none := by
    intro l
    induction l with
    | nil => simp
    | cons x l ih =>
      intro hx
      rw [List.mapM_cons]
      rcases List.mem_cons.1 hx with rfl | hx
      · rw [hread]
        rfl
      · cases readRank columns N x with
        | none => rfl
        | some y => rw [ih hx]; rfl
  have hall := hnone _ (List.mem_range.2 hr)
  unfold Setup.startup Setup.decompose
  rw [hall]

example : ([[1, 2], [3]] : List (List ℕ)) ∈ [[[1, 2], [3]], [[10], [20]]] ∧ ([[10], [20]] : List (List ℕ)) ∈ [[[1, 2], [3]], [[10], [20]]] ∧
    ([[1, 2], [3]] : List (List ℕ)).flatten.length ≠ ([[10], [20]] : List (List ℕ)).flatten.length := by decide

end Verif.Startup
