import Verif.Startup.SourcesSpec
import Verif.Startup.RunProps
import Verif.Domain.SourcesProps

/-! # C104: sources in a run of the program -/

namespace Verif.Startup

open Verif.Geometry Verif.ExchangeData Verif.FileDist Verif.Parallel Verif.Sim Verif.Sources

variable {V R C : Type} {S : Setup V} {m N N' : ℕ} {files files' : List (List (Row V))}
  {rows rows' : List (List (Comps V))} {cfg cfg' : Quadtree.Config} {eps' : ℝ} {G G' : ℕ → List (Name Sweep.Id × Cell)}

/-- **All stars are read once**, whatever the number of ranks is: the list of all sources, which every rank gets, is that of the
rows of the files with a positive formation scale factor, in the order of the files. -/
theorem stars_read (T : Stars V R) (hN : 0 < N) (stars : List (List (Row V))) :
    ∃ sources, T.sources N (starColumns stars) = some sources ∧ sources.length = N ∧
      sources.flatten = starSources T stars.flatten := by
  obtain ⟨parts, h1, h2, h3, h4⟩ := read_parts stars N hN
  have hread : ∀ r ∈ List.range N, T.read (stars.map fun f => f.map fun row => row 0) (stars.map fun f => f.map fun row => row 1)
      (stars.map fun f => f.map fun row => row 2) (stars.map fun f => f.map fun row => row 3) N r =
      some (starSources T (parts.getD r [])) := by
    intro r hr
    rw [List.mem_range, ← h1] at hr
    have hp : parts[r]? = some (parts.getD r []) := by
      rw [List.getD_eq_getElem?_getD, List.getElem?_eq_getElem hr, Option.getD_some]
    generalize parts.getD r [] = p at hp
    unfold Stars.read
    rw [(h4 V (fun row => row 0) r p hp).1, (h4 V (fun row => row 1) r p hp).1, (h4 V (fun row => row 2) r p hp).1,
      (h4 V (fun row => row 3) r p hp).1]
    simp only
    congr 1
    unfold starSources
    clear hp
    induction p with
    | nil => simp
    | cons row p ih =>
      simp only [List.map_cons, List.zip_cons_cons, List.filter_cons]
      split
      · rw [List.map_cons, List.map_cons, ih]
      · exact ih
  refine ⟨(List.range N).map fun r => starSources T (parts.getD r []), ?_, by simp, ?_⟩
  · exact mapM_some _ _ _ hread
  · have e : (List.range N).map (fun r => starSources T (parts.getD r [])) = parts.map (starSources T) := by
      apply List.ext_getElem
      · simp [h1]
      · intro i hi hi'
        simp only [List.getElem_map, List.getElem_range]
        rw [List.length_map] at hi'
        rw [List.getD_eq_getElem?_getD, List.getElem?_eq_getElem hi', Option.getD_some]
    rw [e, ← h2]
    clear * -
    induction parts with
    | nil => simp [starSources]
    | cons p ps ih =>
      rw [List.map_cons, List.flatten_cons, ih, List.flatten_cons]
      unfold starSources
      rw [List.filter_append, List.map_append]

/-- Explicit sources are counted once, whatever the number of ranks is. -/
theorem explicit_sources (T : Stars V R) (hN : 0 < N) (list : List (Source (Vec 3 ℝ) R)) :
    ∃ sources, T.sources N (.explicit list : SourceType V R) = some sources ∧ sources.length = N ∧ sources.flatten = list := by
  refine ⟨_, rfl, by simp, ?_⟩
  obtain ⟨n, rfl⟩ := Nat.exists_eq_add_of_lt hN
  rw [Nat.zero_add, List.range_succ_eq_map, List.map_cons, List.map_map, List.flatten_cons, if_pos rfl]
  have : ((List.range n).map ((fun r => if r = 0 then list else []) ∘ Nat.succ)).flatten = [] := by
    rw [List.flatten_eq_nil_iff]
    intro l hl
    obtain ⟨r, -, rfl⟩ := List.mem_map.1 hl
    simp
  rw [this, List.append_nil]

/-- The decomposition of a run which does not panic, and whose rank an entity has. -/
theorem startup_owner [Inhabited V] (hm : 0 < m) {world : List (Particles V)} (h : S.startup N (columns m files) = some world) :
    ∃ read cuts, S.decompose N (columns m files) = some (read, cuts) ∧
      ∀ (r : ℕ) (ps : Particles V), world[r]? = some ps → ∀ p ∈ ps, S.owner cuts p.2 = r := by
  rcases Nat.eq_zero_or_pos N with rfl | hN
  · simp [Setup.startup, Setup.decompose, Setup.checked, Decomp.decompose, Decomp.globalMin] at h
  obtain ⟨parts, h1, h2, h3, keyFn, hkey, h4, h5, h6⟩ := startup_eq (S := S) (files := files) hm hN
  by_cases hc : ∀ row ∈ files.flatten, S.Contains (S.place (row 0))
  · rw [h4 hc] at h
    cases hd : Decomp.decompose S.search (2 ^ 128 - 1) 42 (parts.map fun p => p.map keyFn) with
    | none => rw [hd] at h; simp at h
    | some cl =>
      obtain ⟨cuts, loads⟩ := cl
      rw [hd] at h
      simp only at h
      refine ⟨parts.map (entities m), cuts, by rw [h6 hc, hd]; rfl, fun r ps hr p hp => ?_⟩
      have hown := exchange_owner h
      obtain ⟨a1, a2, a3⟩ := entities_ok m parts
      obtain ⟨w1, e1, b1, b2⟩ := exchange_moves_particles_to_owners m (S.owner cuts) _ (parts.map (entities m)) hown a1 a2 a3
      rw [h] at e1
      obtain rfl := Option.some.inj e1
      have : p.2 ∈ ps.map Prod.snd := List.mem_map.2 ⟨p, hp, rfl⟩
      rw [(b2 r ps hr).1.mem_iff, List.mem_filter, decide_eq_true_eq] at this
      exact this.2
  · rw [h5 hc] at h
    simp at h

/-- The components of the particles are on the ranks which have their keys. -/
theorem Started.owner [Inhabited V] (hm : 0 < m) (h : Started S m N files rows) :
    ∃ read cuts, S.decompose N (columns m files) = some (read, cuts) ∧ ∀ u a, At rows u a → S.owner cuts a = u.rank := by
  obtain ⟨world, h1, h2⟩ := h
  obtain ⟨read, cuts, h3, h4⟩ := startup_owner hm h1
  refine ⟨read, cuts, h3, fun u a ha => ?_⟩
  unfold At at ha
  rw [List.getD_eq_getElem?_getD] at ha
  cases hl : rows[u.rank]? with
  | none => rw [hl] at ha; simp at ha
  | some l =>
    rw [hl, Option.getD_some] at ha
    obtain ⟨hlt, e⟩ := List.getElem?_eq_some_iff.1 hl
    have hw : u.rank < world.length := by rw [h2.length_eq]; exact hlt
    have hp := List.forall₂_iff_get.1 h2 |>.2 u.rank hw hlt
    simp only [List.get_eq_getElem] at hp
    rw [e] at hp
    have hmem := hp.mem_iff.1 (List.mem_of_getElem? ha)
    obtain ⟨p, hp1, rfl⟩ := List.mem_map.1 hmem
    exact h4 u.rank _ (List.getElem?_eq_getElem hw) p hp1

variable [AddCommGroup R]

/-- The term of a particle: the rates of the sources which are on its rank and closest to it there. -/
theorem terms_eq {nearest : List (Vec 3 ℝ) → Vec 3 ℝ → Option ℕ} (hn : NearestContract squared nearest) {cuts : List ℕ}
    {sources : List (List (Source (Vec 3 ℝ) R))} (hne : ∀ l ∈ rows, l ≠ [])
    (hown : ∀ s ∈ sources.flatten, Decomp.owningRank S.search cuts ((key S.lo S.hi s.pos).getD 0) < rows.length) :
    ∃ terms, S.deposit nearest cuts sources rows = some terms ∧
      (∀ u a, At rows u a → termOf terms u = ((sources.flatten.filter fun s =>
        Decomp.owningRank S.search cuts ((key S.lo S.hi s.pos).getD 0) = u.rank ∧
          nearest ((rows.getD u.rank []).map fun a => (S.position a).getD 0) s.pos = some u.idx).map Source.rate).sum) ∧
      (terms.map List.sum).sum = totalLuminosity sources := by
  obtain ⟨terms, h1, h2, h3, h4⟩ := sources_deposited_once hn (fun x => Decomp.owningRank S.search cuts ((key S.lo S.hi x).getD 0)) sources
    (rows.map fun l => (l.map fun a => (S.position a).getD 0, l.map fun _ => (0 : R)))
    (by
      intro w hw
      obtain ⟨l, hl, rfl⟩ := List.mem_map.1 hw
      simpa using hne l hl)
    (by
      intro w hw
      obtain ⟨l, hl, rfl⟩ := List.mem_map.1 hw
      simp)
    (by simpa using hown)
  refine ⟨terms, h1, fun u a ha => ?_, ?_⟩
  · unfold At at ha
    rw [List.getD_eq_getElem?_getD] at ha
    cases hl : rows[u.rank]? with
    | none => rw [hl] at ha; simp at ha
    | some l =>
      rw [hl, Option.getD_some] at ha
      obtain ⟨ts, k1, k2⟩ := h3 u.rank u.idx (l.map fun a => (S.position a).getD 0, l.map fun _ => (0 : R)) 0
        (by rw [List.getElem?_map, hl]; rfl)
        (by show (l.map fun _ => (0 : R))[u.idx]? = some 0; rw [List.getElem?_map, ha]; rfl)
      unfold termOf
      rw [List.getD_eq_getElem?_getD, List.getD_eq_getElem?_getD, k1, Option.getD_some, k2, Option.getD_some, zero_add,
        List.getD_eq_getElem?_getD, hl, Option.getD_some]
  · have : ((rows.map fun l => (l.map fun a => (S.position a).getD 0, l.map fun _ => (0 : R))).map fun w => w.2.sum).sum = 0 := by
      apply List.sum_eq_zero
      intro x hx
      obtain ⟨w, hw, rfl⟩ := List.mem_map.1 hx
      obtain ⟨l, -, rfl⟩ := List.mem_map.1 hw
      simp
    rw [h4, this, zero_add]

theorem mem_getD {a : Comps V} {r : ℕ} (h : a ∈ rows.getD r []) : a ∈ rows.flatten := by
  rw [List.getD_eq_getElem?_getD] at h
  cases he : rows[r]? with
  | none => rw [he] at h; simp at h
  | some l =>
    rw [he] at h
    exact List.mem_flatten.2 ⟨l, List.mem_of_getElem? he, h⟩

/-- The grid is only built if all ranks have particles. -/
theorem ready_nonempty (H : Ready eps' false (S.world cfg rows) G) : ∀ l ∈ rows, l ≠ [] := by
  intro l hl he
  subst he
  obtain ⟨r, hr⟩ := List.getElem?_of_mem hl
  refine H.valid.nonempty [] ?_ rfl
  unfold Setup.world numbered
  refine List.mem_of_getElem? (i := r) ?_
  simp [hr, assignIds]

/-- The index of a settled source. -/
theorem settled_index {nearest : List (Vec 3 ℝ) → Vec 3 ℝ → Option ℕ} (hn : NearestContract squared nearest) {cuts : List ℕ}
    (H : Ready eps' false (S.world cfg rows) G) {x : Vec 3 ℝ} {a : Comps V} (hs : Settled S cuts rows x a) {u : Sweep.Id}
    {b : Comps V} (hb : At rows u b) :
    (Decomp.owningRank S.search cuts ((key S.lo S.hi x).getD 0) = u.rank ∧
      nearest ((rows.getD u.rank []).map fun a => (S.position a).getD 0) x = some u.idx) ↔ spot S b = spot S a := by
  obtain ⟨h1, h2⟩ := hs
  have hnear : ∀ r, Decomp.owningRank S.search cuts ((key S.lo S.hi x).getD 0) = r → ∃ i c, At rows ⟨r, i⟩ c ∧
      nearest ((rows.getD r []).map fun a => (S.position a).getD 0) x = some i ∧ spot S c = spot S a := by
    intro r hr
    rw [hr] at h1
    obtain ⟨i, y, k1, k2, k3⟩ := hn.total ((rows.getD r []).map fun a => (S.position a).getD 0) x
      (by intro h; rw [List.map_eq_nil_iff] at h; rw [h] at h1; simp at h1)
    rw [List.getElem?_map] at k2
    obtain ⟨c, hc, rfl⟩ := Option.map_eq_some_iff.1 k2
    refine ⟨i, c, hc, k1, ?_⟩
    by_contra hne
    have h4 := h2 c (At.mem (u := ⟨r, i⟩) hc) hne
    have h5 := k3 _ (List.mem_map.2 ⟨a, h1, rfl⟩)
    exact absurd h4 (not_lt.2 h5)
  constructor
  · rintro ⟨k1, k2⟩
    obtain ⟨i, c, hc, k3, k4⟩ := hnear _ k1
    rw [k2] at k3
    obtain rfl := Option.some.inj k3
    have e : b = c := by
      have h6 : (rows.getD u.rank [])[u.idx]? = some b := hb
      have h7 : (rows.getD u.rank [])[u.idx]? = some c := hc
      exact Option.some.inj (h6.symm.trans h7)
    rw [e, k4]
  · intro he
    obtain ⟨i, c, hc, k3, k4⟩ := hnear _ rfl
    have := congrArg Prod.fst (H.place (hb.world (S := S) (cfg := cfg)) (hc.world (S := S) (cfg := cfg)) (he.trans k4.symm)).2
    dsimp only at this
    rw [this]
    exact ⟨rfl, k3⟩

/-- **The sources are at the same particles.**  Two runs on different numbers of ranks; the sources are the same, in any order
and on any ranks.  If in both runs every source is settled, then every particle has the same source term in both runs. -/
theorem sources_distribution [Inhabited V] (hm : 0 < m) (hfiles : files'.flatten.Perm files.flatten)
    (hs : Started S m N files rows) (hs' : Started S m N' files' rows')
    (H : Ready eps' false (S.world cfg rows) G) (H' : Ready eps' false (S.world cfg' rows') G')
    {nearest nearest' : List (Vec 3 ℝ) → Vec 3 ℝ → Option ℕ} (hn : NearestContract squared nearest)
    (hn' : NearestContract squared nearest') {cuts cuts' : List ℕ}
    {sources sources' : List (List (Source (Vec 3 ℝ) R))} (hsrc : sources'.flatten.Perm sources.flatten)
    (hset : ∀ s ∈ sources.flatten, ∃ a, Settled S cuts rows s.pos a)
    (hset' : ∀ s ∈ sources'.flatten, ∃ a, Settled S cuts' rows' s.pos a)
    {terms terms' : List (List R)} (ht : S.deposit nearest cuts sources rows = some terms)
    (ht' : S.deposit nearest' cuts' sources' rows' = some terms') :
    ∀ u u', SamePlace (S.world cfg rows) (S.world cfg' rows') u u' → termOf terms' u' = termOf terms u := by
  obtain ⟨hp1, hl1⟩ := hs.perm hm
  obtain ⟨hp2, hl2⟩ := hs'.perm hm
  have hp : rows'.flatten.Perm rows.flatten := hp2.trans ((hfiles.map _).trans hp1.symm)
  have hlt : ∀ {rows : List (List (Comps V))} {cuts x a}, Settled S cuts rows x a →
      Decomp.owningRank S.search cuts ((key S.lo S.hi x).getD 0) < rows.length := by
    intro rows cuts x a h
    by_contra hge
    have := h.1
    rw [List.getD_eq_getElem?_getD, List.getElem?_eq_none (by omega)] at this
    simp at this
  obtain ⟨t1, e1, e2, -⟩ := terms_eq (S := S) hn (cuts := cuts) (sources := sources) (ready_nonempty H)
    fun s hs => hlt (hset s hs).choose_spec
  obtain ⟨t2, f1, f2, -⟩ := terms_eq (S := S) hn' (cuts := cuts') (sources := sources') (ready_nonempty H')
    fun s hs => hlt (hset' s hs).choose_spec
  rw [ht] at e1
  obtain rfl := Option.some.inj e1
  rw [ht'] at f1
  obtain rfl := Option.some.inj f1
  intro u u' hu
  obtain ⟨b, hb, hb'⟩ := samePlace_row H' hp hu
  rw [e2 u b hb, f2 u' b hb']
  refine List.Perm.sum_eq (List.Perm.trans (List.Perm.map _ (hsrc.filter _)) ?_)
  refine List.Perm.of_eq (congrArg _ (List.filter_congr fun s hs => ?_))
  obtain ⟨a, ha⟩ := hset s hs
  obtain ⟨a', ha'⟩ := hset' s (hsrc.mem_iff.2 hs)
  rw [decide_eq_decide, settled_index hn H ha hb, settled_index hn' H' ha' hb']
  have : spot S a' = spot S a := by
    have m1 : a ∈ rows.flatten := mem_getD ha.1
    have m2 : a' ∈ rows'.flatten := mem_getD ha'.1
    by_contra hne
    exact absurd (ha.2 a' (hp.mem_iff.1 m2) hne) (not_lt.2 (ha'.2 a (hp.mem_iff.2 m1) (Ne.symm hne)).le)
  rw [this]

/-- A source at the position of a particle is settled there, whatever the number of ranks is. -/
theorem settled_at_particle [Inhabited V] (hm : 0 < m) (hs : Started S m N files rows) {read : List (Particles V)} {cuts : List ℕ}
    (hd : S.decompose N (columns m files) = some (read, cuts)) {a : Comps V} (ha : a ∈ rows.flatten) {x : Vec 3 ℝ}
    (hx : S.position a = some x) : Settled S cuts rows x a := by
  obtain ⟨read', cuts', h1, h2⟩ := hs.owner hm
  rw [hd] at h1
  obtain ⟨-, rfl⟩ := Prod.mk.inj (Option.some.inj h1)
  obtain ⟨u, hu⟩ := exists_at ha
  have h3 := h2 u a hu
  unfold Setup.owner Setup.keyOf at h3
  rw [hx, Option.bind_some] at h3
  refine ⟨?_, fun b _ hne => ?_⟩
  · rw [h3]
    exact List.mem_of_getElem? hu
  · rw [hx, Option.getD_some] at hne ⊢
    generalize (S.position b).getD 0 = y at hne
    have h4 : squared x x = 0 := by simp [squared]
    rw [h4]
    by_contra hle
    have h5 : squared x y ≤ 0 := not_lt.1 hle
    unfold squared at h5
    have k0 : (x 0 - y 0) ^ 2 = 0 := by nlinarith [sq_nonneg (x 0 - y 0), sq_nonneg (x 1 - y 1), sq_nonneg (x 2 - y 2)]
    have k1 : (x 1 - y 1) ^ 2 = 0 := by nlinarith [sq_nonneg (x 0 - y 0), sq_nonneg (x 1 - y 1), sq_nonneg (x 2 - y 2)]
    have k2 : (x 2 - y 2) ^ 2 = 0 := by nlinarith [sq_nonneg (x 0 - y 0), sq_nonneg (x 1 - y 1), sq_nonneg (x 2 - y 2)]
    apply hne
    funext i
    fin_cases i
    · exact (sub_eq_zero.1 (pow_eq_zero_iff (two_ne_zero) |>.1 k0)).symm
    · exact (sub_eq_zero.1 (pow_eq_zero_iff (two_ne_zero) |>.1 k1)).symm
    · exact (sub_eq_zero.1 (pow_eq_zero_iff (two_ne_zero) |>.1 k2)).symm

/-- **No luminosity is lost.**  If the key of no star is larger than those of all particles, no rank panics and the sum of the
terms of all particles of all ranks is that of the rates of the stars. -/
theorem luminosity_kept [Inhabited V] (hc : Decomp.SearchContract S.search) (hm : 0 < m) (hs : Started S m N files rows)
    (hbox : ∀ i, S.lo i < S.hi i) (hap : files.flatten.Pairwise fun a b => S.Apart (S.place (a 0)) (S.place (b 0)))
    (hne : ∀ l ∈ rows, l ≠ [])
    {nearest : List (Vec 3 ℝ) → Vec 3 ℝ → Option ℕ} (hn : NearestContract squared nearest) {T : Stars V R} {stars : List (List (Row V))}
    {sources : List (List (Source (Vec 3 ℝ) R))} (hsrc : T.sources N (starColumns stars) = some sources)
    (hkeys : ∀ s ∈ starSources T stars.flatten, ∃ row ∈ files.flatten, ∃ k k', key S.lo S.hi s.pos = some k ∧
      key S.lo S.hi (S.place (row 0)) = some k' ∧ k ≤ k') :
    ∃ read cuts terms, S.decompose N (columns m files) = some (read, cuts) ∧ S.deposit nearest cuts sources rows = some terms ∧
      (terms.map List.sum).sum = ((starSources T stars.flatten).map Source.rate).sum := by
  obtain ⟨world, hw, -⟩ := id hs
  have hN : 0 < N := by
    by_contra h0
    obtain rfl : N = 0 := by omega
    simp [Setup.startup, Setup.decompose, Setup.checked, Decomp.decompose, Decomp.globalMin] at hw
  have hin := (startup_keeps_rows hm hw).2.2.1
  have hrows : N ≤ files.flatten.length := by
    by_contra hlt
    rw [startup_panics_with_few_rows hm (by omega)] at hw
    simp at hw
  obtain ⟨parts, h1, h2, h3, keyFn, hkey, -, -, h6⟩ := startup_eq (S := S) (files := files) hm hN
  have hflat : (parts.map fun p => p.map keyFn).flatten = files.flatten.map keyFn := by
    rw [← List.map_flatten, h2]
  have hex := fun k => source_owner_exists_iff hc (2 ^ 128 - 1) 42 (parts.map fun p => p.map keyFn)
    (by rw [ne_eq, List.map_eq_nil_iff]; rintro rfl; simp at h1; omega) (parts_nonempty hN hrows h3 keyFn)
    (by rw [hflat]; exact pairwise_keys hbox hin hap hkey)
    (by
      rw [hflat]
      intro k hk
      obtain ⟨row, -, rfl⟩ := List.mem_map.1 hk
      have := (hkey row).2
      omega) k
  obtain ⟨cuts, loads, hdec, -⟩ := hex 0
  obtain ⟨s1, a1, -, a3⟩ := stars_read T hN stars
  rw [hsrc] at a1
  obtain rfl := Option.some.inj a1
  obtain ⟨terms, e1, -, e3⟩ := terms_eq (S := S) hn (cuts := cuts) (sources := sources) hne (by
    intro s hs'
    rw [a3] at hs'
    obtain ⟨row, hrow, k, k', hk, hk', hle⟩ := hkeys s hs'
    obtain ⟨cuts2, loads2, hdec2, hiff⟩ := hex k
    rw [hdec] at hdec2
    obtain ⟨rfl, -⟩ := Prod.mk.inj (Option.some.inj hdec2)
    rw [hk, Option.getD_some, (hs.perm hm).2]
    rw [List.length_map, h1] at hiff
    refine hiff.2 ⟨k', ?_, hle⟩
    rw [hflat]
    refine List.mem_map.2 ⟨row, hrow, ?_⟩
    rw [(hkey row).1] at hk'
    exact Option.some.inj hk')
  refine ⟨parts.map (entities m), cuts, terms, by rw [h6 hin, hdec]; rfl, e1, ?_⟩
  rw [e3, totalLuminosity, a3]

/-- **The whole program with its sources.**  As `program_output`, but the sources are not given: they are the stars of the input
files, which can be in any files and orders too, and are settled in both runs. -/
theorem program_output_sources [Module ℝ R] [Inhabited V] {M : Chemistry V R C} {batch batch' : ℕ} {maxTimestep : ℝ}
    {w0 w w0' w' : Whole R C} (hm : 0 < m) (hfiles : files'.flatten.Perm files.flatten)
    (hs : Started S m N files rows) (hs' : Started S m N' files' rows')
    (H : Ready eps' false (S.world cfg rows) G) (H' : Ready eps' false (S.world cfg' rows') G') (hN : 0 < N) (hN' : 0 < N')
    {T : Stars V R} {stars stars' : List (List (Row V))} (hstars : stars'.flatten.Perm stars.flatten)
    {nearest nearest' : List (Vec 3 ℝ) → Vec 3 ℝ → Option ℕ} (hn : NearestContract squared nearest)
    (hn' : NearestContract squared nearest') {sources sources' : List (List (Source (Vec 3 ℝ) R))}
    (hsrc : T.sources N (starColumns stars) = some sources) (hsrc' : T.sources N' (starColumns stars') = some sources')
    {read read' : List (Particles V)} {cuts cuts' : List ℕ} (_hd : S.decompose N (columns m files) = some (read, cuts))
    (_hd' : S.decompose N' (columns m files') = some (read', cuts'))
    (hset : ∀ s ∈ starSources T stars.flatten, (∃ a, Settled S cuts rows s.pos a) ∧ ∃ a, Settled S cuts' rows' s.pos a)
    {terms terms' : List (List R)} (ht : S.deposit nearest cuts sources rows = some terms)
    (ht' : S.deposit nearest' cuts' sources' rows' = some terms')
    (h0 : firstState maxTimestep 1 N G (fun u => M.init (rowOf rows u) (sizesOf G u)) = some w0)
    (h0' : firstState maxTimestep 1 N' G' (fun u => M.init (rowOf rows' u) (sizesOf G' u)) = some w0')
    (h : Simulated (M.physics batch (termOf terms) rows G) w0 w) (h' : Simulated (M.physics batch' (termOf terms') rows' G') w0' w')
    (hcalls : w'.calls = w.calls) :
    w'.time = w.time ∧
    ∀ (B : Type) (field : Comps V → ℝ × ℝ → C → List R → B) (numFiles numFiles' : ℕ) (order order' : List ℕ),
      0 < numFiles → 0 < numFiles' → order.Perm (List.range N) → order'.Perm (List.range N') →
      ∃ store store' out out', writeSnapshot (outputData M.numDirs field rows G w) numFiles order = some store ∧
        writeSnapshot (outputData M.numDirs field rows' G' w') numFiles' order' = some store' ∧
        store.files = some out ∧ store'.files = some out' ∧
        out.flatten.length = files.flatten.length ∧ out'.flatten.Perm out.flatten := by
  obtain ⟨s1, a1, -, a3⟩ := stars_read T hN stars
  rw [hsrc] at a1
  obtain rfl := Option.some.inj a1
  obtain ⟨s2, b1, -, b3⟩ := stars_read T hN' stars'
  rw [hsrc'] at b1
  obtain rfl := Option.some.inj b1
  have hperm : sources'.flatten.Perm sources.flatten := by
    rw [a3, b3]
    exact (hstars.filter _).map _
  exact program_output hm hfiles hs hs' H H' hN
    (sources_distribution hm hfiles hs hs' H H' hn hn' hperm (fun s hs => (hset s (by rwa [a3] at hs)).1)
      (fun s hs => (hset s (by rw [← a3]; exact hperm.mem_iff.1 hs)).2) ht ht') h0 h0' h h' hcalls

end Verif.Startup
