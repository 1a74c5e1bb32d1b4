import Verif.Delaunay.Steps
import Verif.Delaunay.LocationLemmas
import Verif.Delaunay.InsertSpec

/-! # Insertion: lemmas -/

namespace Verif.Delaunay

/-- Induction over the rounds of the flip loop.  `I m last q` is an invariant about the mesh, the remembered
tetra and the tetras which still have to be checked. -/
theorem flipLoop_induct {circ : Tetra → ℕ → Option Bool} {flip : Mesh → ℕ → ℕ → Option (Mesh × List ℕ)}
    {point : ℕ} (I : Mesh → Option ℕ → List ℕ → Prop) (μ : Mesh → ℕ) (B : ℕ)
    (hdead : ∀ m last t q, I m last (t :: q) → m.tetras.get t = none → I m last q)
    (hstep : ∀ m last t q T, I m last (t :: q) → m.tetras.get t = some T →
      ∃ fi, T.findFaceOpposite point = some fi ∧ ∀ m' news, flipCheck circ flip m t fi.face = some (m', news) →
        I m' (some t) (q ++ news) ∧ ((news = [] ∧ μ m' = μ m) ∨ (news.length ≤ B ∧ μ m' + 1 ≤ μ m)))
    (fuel : ℕ) {m : Mesh} {last : Option ℕ} {tetras : List ℕ} {idx : ℕ} (hidx : idx ≤ tetras.length)
    (h : I m last (tetras.drop idx)) :
    (match flipLoop circ flip point fuel m last tetras idx with
      | .done (m', last', tetras') => I m' last' [] ∧ ∃ l, tetras' = tetras ++ l
      | .panic => ∃ m' last' t q T fi, I m' last' (t :: q) ∧ m'.tetras.get t = some T ∧
        T.findFaceOpposite point = some fi ∧ flipCheck circ flip m' t fi.face = none
      | .running => True) ∧
    (tetras.length + B * μ m < fuel + idx → flipLoop circ flip point fuel m last tetras idx ≠ .running) := by
  induction fuel generalizing m last tetras idx with
  | zero =>
    refine ⟨trivial, fun hf => ?_⟩
    exfalso
    have := Nat.zero_le (B * μ m)
    omega
  | succ fuel ih =>
    unfold flipLoop
    cases ht : tetras[idx]? with
    | none =>
      dsimp only
      have hl : tetras.length ≤ idx := List.getElem?_eq_none_iff.1 ht
      rw [List.drop_eq_nil_of_le hl] at h
      exact ⟨⟨h, [], by simp⟩, fun _ e => by cases e⟩
    | some t =>
      dsimp only
      obtain ⟨hlt, hte⟩ := List.getElem?_eq_some_iff.1 ht
      have hdrop : tetras.drop idx = t :: tetras.drop (idx + 1) := by
        rw [List.drop_eq_getElem_cons hlt, hte]
      rw [hdrop] at h
      cases hT : m.tetras.get t with
      | none =>
        dsimp only
        obtain ⟨h1, h2⟩ := ih (by omega) (hdead m last t _ h hT)
        exact ⟨h1, fun hf => h2 (by omega)⟩
      | some T =>
        dsimp only
        obtain ⟨fi, hfi, hs⟩ := hstep m last t _ T h hT
        rw [hfi]
        dsimp only
        cases hc : flipCheck circ flip m t fi.face with
        | none => exact ⟨⟨m, last, t, _, T, fi, h, hT, hfi, hc⟩, fun _ e => by cases e⟩
        | some r =>
          obtain ⟨m', news⟩ := r
          dsimp only
          obtain ⟨h1, h2⟩ := hs m' news hc
          have hd' : (tetras ++ news).drop (idx + 1) = tetras.drop (idx + 1) ++ news :=
            List.drop_append_of_le_length (by omega)
          rw [← hd'] at h1
          obtain ⟨h3, h4⟩ := ih (by rw [List.length_append]; omega) h1
          refine ⟨?_, fun hf => h4 ?_⟩
          · revert h3
            cases flipLoop circ flip point fuel m' (some t) (tetras ++ news) (idx + 1) with
            | running => exact id
            | panic => exact id
            | done r =>
              rintro ⟨h5, l, h6⟩
              exact ⟨h5, news ++ l, by rw [h6, List.append_assoc]⟩
          · rw [List.length_append]
            rcases h2 with ⟨rfl, h2⟩ | ⟨h2, h5⟩
            · rw [h2, List.length_nil]
              omega
            · have : B * μ m' + B ≤ B * μ m := by
                rw [← Nat.mul_succ]
                exact Nat.mul_le_mul_left B h5
              omega

/-! ### Insertion, in both dimensions -/

/-- What the splits and flips of a dimension are required to do. -/
structure OpsOk (D B : ℕ) (ops : Ops) : Prop where
  split : ∀ M t T point, Consistent D M → M.tetras.get t = some T → point < M.numPoints → point ∉ T.points →
    ∃ M' news, ops.split M t point = some (M', news) ∧ Step D point M M' news ∧ news.length ≤ B ∧
      M'.away point + 1 = M.away point
  flip : ∀ M t T p s c, Consistent D M → M.tetras.get t = some T → (p, s) ∈ T.slots → s.opposing = some c →
    c.point ∉ T.points → ∀ M' news, ops.flip M t s.face = some (M', news) →
    (M' = M ∧ news = []) ∨ (Step D p M M' news ∧ news.length ≤ B ∧ M'.away p + 1 = M.away p)

/-- The invariant of the flip loop. -/
structure LoopInv (D point : ℕ) (P : Mesh → Prop) (m : Mesh) (last : Option ℕ) (q : List ℕ) : Prop where
  cons : Consistent D m
  num : m.numPoints = point + 1
  point : ∀ t ∈ q, ∀ T, m.tetras.get t = some T → point ∈ T.points
  live : (∃ t ∈ q, ∃ T, m.tetras.get t = some T) ∨ ∃ l T, last = some l ∧ m.tetras.get l = some T
  inv : P m

theorem flipCheck_cases {D point B : ℕ} {ops : Ops} (ho : OpsOk D B ops) {circ : Tetra → ℕ → Option Bool}
    (hcirc : ∀ T q, circ T q = some true → q ∉ T.points) {m : Mesh} (h : Consistent D m) {t : ℕ} {T : Tetra}
    (hT : m.tetras.get t = some T) {fi : FaceInfo} (hfi : (point, fi) ∈ T.slots) {m' : Mesh} {news : List ℕ}
    (hrun : flipCheck circ ops.flip m t fi.face = some (m', news)) :
    (m' = m ∧ news = []) ∨ (∃ c, fi.opposing = some c ∧ c.point ∉ T.points ∧ circ T c.point = some true ∧
      ops.flip m t fi.face = some (m', news) ∧
      Step D point m m' news ∧ news.length ≤ B ∧ m'.away point + 1 = m.away point) := by
  unfold flipCheck faceIsInvalid at hrun
  rw [hT] at hrun
  dsimp only at hrun
  rw [findFace_eq (h.facesNodup t T hT) hfi] at hrun
  dsimp only at hrun
  cases hop : fi.opposing with
  | none =>
    rw [hop] at hrun
    cases hrun
    exact Or.inl ⟨rfl, rfl⟩
  | some c =>
    rw [hop] at hrun
    dsimp only at hrun
    cases hc : circ T c.point with
    | none => rw [hc] at hrun; cases hrun
    | some b =>
      rw [hc] at hrun
      cases b with
      | false => cases hrun; exact Or.inl ⟨rfl, rfl⟩
      | true =>
        dsimp only at hrun
        have hq := hcirc T c.point hc
        rcases ho.flip m t T point fi c h hT hfi hop hq m' news hrun with h1 | h1
        · exact Or.inl h1
        · exact Or.inr ⟨c, rfl, hq, hc, hrun, h1⟩

theorem findFaceOpposite_of_mem {T : Tetra} {p : ℕ} (hn : T.points.Nodup) (h : p ∈ T.points) :
    ∃ s, T.findFaceOpposite p = some s ∧ (p, s) ∈ T.slots := by
  obtain ⟨s, hs⟩ := exists_slot h
  exact ⟨s, findFaceOpposite_eq hn hs, hs⟩

theorem LoopInv.dead {D point : ℕ} {P : Mesh → Prop} {m : Mesh} {last : Option ℕ} {t : ℕ} {q : List ℕ}
    (h : LoopInv D point P m last (t :: q)) (ht : m.tetras.get t = none) : LoopInv D point P m last q := by
  refine ⟨h.cons, h.num, fun t' ht' => h.point t' (List.mem_cons_of_mem _ ht'), ?_, h.inv⟩
  rcases h.live with ⟨t', ht', T', hT'⟩ | h2
  · rcases List.mem_cons.1 ht' with rfl | ht'
    · rw [ht] at hT'; cases hT'
    · exact Or.inl ⟨t', ht', T', hT'⟩
  · exact Or.inr h2

theorem LoopInv.checked {D point : ℕ} {P : Mesh → Prop} {m : Mesh} {last : Option ℕ} {t : ℕ} {q : List ℕ} {T : Tetra}
    (h : LoopInv D point P m last (t :: q)) (hT : m.tetras.get t = some T) :
    LoopInv D point P m (some t) (q ++ []) :=
  ⟨h.cons, h.num, fun t' ht' => h.point t' (List.mem_cons_of_mem _ (by simpa using ht')),
        Or.inr ⟨t, T, rfl, hT⟩, h.inv⟩

theorem LoopInv.step {D point : ℕ} {P : Mesh → Prop} {m m' : Mesh} {last : Option ℕ} {t : ℕ} {q news : List ℕ}
    (h : LoopInv D point P m last (t :: q)) (hst : Step D point m m' news) (hP : P m') :
    LoopInv D point P m' (some t) (q ++ news) := by
  refine ⟨hst.cons, hst.numPoints.trans h.num, ?_, ?_, hP⟩
  · intro t' ht' T' hT'
    by_cases hn : t' ∈ news
    · exact hst.point t' hn T' hT'
    · obtain ⟨T0, h0, h1⟩ := hst.old t' T' hT' hn
      rw [← shape_points h1]
      rcases List.mem_append.1 ht' with ht' | ht'
      · exact h.point t' (List.mem_cons_of_mem _ ht') T0 h0
      · exact absurd ht' hn
  · obtain ⟨n, hn⟩ := List.exists_mem_of_ne_nil _ hst.nonempty
    obtain ⟨T', hT'⟩ := hst.live n hn
    exact Or.inl ⟨n, List.mem_append.2 (Or.inr hn), T', hT'⟩

theorem flipLoop_spec {D point B : ℕ} {ops : Ops} (ho : OpsOk D B ops) {circ : Tetra → ℕ → Option Bool}
    (hcirc : ∀ T q, circ T q = some true → q ∉ T.points) {P : Mesh → Prop}
    (hP : ∀ m t T fi c m' news, Consistent D m → P m → m.tetras.get t = some T → (point, fi) ∈ T.slots →
      fi.opposing = some c → c.point ∉ T.points → circ T c.point = some true →
      ops.flip m t fi.face = some (m', news) → P m')
    (fuel : ℕ) {m : Mesh} {last : Option ℕ} {tetras : List ℕ} (h : LoopInv D point P m last tetras) :
    (match flipLoop circ ops.flip point fuel m last tetras 0 with
      | .done (m', last', tetras') => LoopInv D point P m' last' [] ∧ ∃ l, tetras' = tetras ++ l
      | .panic => ∃ m' last' t q T fi, LoopInv D point P m' last' (t :: q) ∧ m'.tetras.get t = some T ∧
        T.findFaceOpposite point = some fi ∧ flipCheck circ ops.flip m' t fi.face = none
      | .running => True) ∧
    (tetras.length + B * m.away point < fuel → flipLoop circ ops.flip point fuel m last tetras 0 ≠ .running) := by
  refine flipLoop_induct (LoopInv D point P) (Mesh.away point) B ?_ ?_ fuel (Nat.zero_le _)
    (by simpa using h)
  · intro m last t q h ht
    exact h.dead ht
  · intro m last t q T h hT
    obtain ⟨fi, hfi, hmem⟩ := findFaceOpposite_of_mem (h.cons.points_nodup t T hT)
      (h.point t List.mem_cons_self T hT)
    refine ⟨fi, hfi, fun m' news hrun => ?_⟩
    rcases flipCheck_cases ho hcirc h.cons hT hmem hrun with ⟨rfl, rfl⟩ | ⟨c, hc, hq, hci, hfl, hst, hl, ha⟩
    · exact ⟨h.checked hT, Or.inl ⟨rfl, rfl⟩⟩
    · exact ⟨h.step hst (hP m t T fi c m' news h.cons h.inv hT hmem hc hq hci hfl), Or.inr ⟨hl, by omega⟩⟩

theorem Consistent.linksLive {D : ℕ} {M : Mesh} (h : Consistent D M) : M.LinksLive := by
  rintro i j ⟨T, hT, p, s, q, hs, ho⟩
  obtain ⟨_, U, _, hU, _⟩ := (h.neighbour i T hT p s hs j q).1 ho
  exact ⟨U, hU⟩

/-- The properties of a triangulation between insertions. -/
structure StateOk (D : ℕ) (s : State) : Prop where
  cons : Consistent D s.mesh
  last : ∀ l, s.last = some l → ∃ T, s.mesh.tetras.get l = some T

theorem findContaining_live {g : Geo} {pop : List ℕ → Option (ℕ × List ℕ)} (hp : HeapOk pop) {D : ℕ} {s : State}
    (h : StateOk D s) {fuel : ℕ} {m : Mesh} (hm : m = { s.mesh with numPoints := s.mesh.numPoints + 1 }) :
    (match findContaining (fun T => g.contains T s.mesh.numPoints) pop fuel m s.last with
      | .running => True
      | .panic => ∃ i T, s.mesh.tetras.get i = some T ∧ g.contains T s.mesh.numPoints = none
      | .done none => (∀ l, s.last = some l → ∀ i, s.mesh.Reach l i → ∃ T, s.mesh.tetras.get i = some T ∧
            g.contains T s.mesh.numPoints = some false) ∧
          (s.last = none → ∀ i T, s.mesh.tetras.get i = some T → g.contains T s.mesh.numPoints = some false)
      | .done (some t) => ∃ T, s.mesh.tetras.get t = some T ∧ g.contains T s.mesh.numPoints = some true) ∧
    (m.tetras.len < fuel → findContaining (fun T => g.contains T s.mesh.numPoints) pop fuel m s.last ≠ .running) := by
  have hcons : Consistent D m := by rw [hm]; exact h.cons.mesh (Nat.le_succ _)
  have hte : m.tetras = s.mesh.tetras := by rw [hm]
  have hre : ∀ l i, s.mesh.Reach l i ↔ m.Reach l i := by
    intro l i
    have : s.mesh.Adj = m.Adj := by
      funext a b
      unfold Mesh.Adj
      rw [hte]
    unfold Mesh.Reach
    rw [this]
  unfold findContaining
  cases hl : s.last with
  | none =>
    dsimp only
    have hsc := scan_spec (fun T => g.contains T s.mesh.numPoints) m.tetras.entries
    revert hsc
    cases scan (fun T => g.contains T s.mesh.numPoints) m.tetras.entries with
    | running => exact fun h => False.elim h
    | panic =>
      rintro ⟨e, he, h2⟩
      exact ⟨⟨e.1, e.2, by rw [← hte]; exact (hcons.tetras_ok.mem_iff _ _).1 he, h2⟩, fun _ e => by cases e⟩
    | done r =>
      cases r with
      | none =>
        intro h2
        refine ⟨⟨(fun l hl => by cases hl), fun _ i T hT => ?_⟩, fun _ e => by cases e⟩
        rw [← hte] at hT
        exact h2 _ ((hcons.tetras_ok.mem_iff _ _).2 hT)
      | some i =>
        rintro ⟨T, hT, h2⟩
        refine ⟨⟨T, ?_, h2⟩, fun _ e => by cases e⟩
        rw [← hte]
        exact (hcons.tetras_ok.mem_iff _ _).1 hT
  | some first =>
    dsimp only
    have hf : ∃ T, m.tetras.get first = some T := by rw [hte]; exact h.last first hl
    obtain ⟨h1, h2⟩ := searchLoop_spec (fun T => g.contains T s.mesh.numPoints) hp hcons.linksLive fuel
      (searchInv_init _ hf)
    unfold findBreadthFirst
    have h2' : m.tetras.len < fuel → searchLoop (fun T => g.contains T s.mesh.numPoints) pop m fuel
        [first] [first] [] ≠ .running := fun hf => h2 (by simpa using hf)
    clear h2
    revert h1 h2'
    cases searchLoop (fun T => g.contains T s.mesh.numPoints) pop m fuel [first] [first] [] with
    | running => exact fun _ h => ⟨trivial, fun hf => absurd rfl (h hf)⟩
    | panic =>
      rintro ⟨i, T, _, hT, h2⟩ _
      exact ⟨⟨i, T, by rw [← hte]; exact hT, h2⟩, fun _ e => by cases e⟩
    | done r =>
      obtain ⟨r, ts⟩ := r
      cases r with
      | none =>
        rintro ⟨h3, _⟩ _
        refine ⟨⟨fun l hl i hi => ?_, (fun hl => by cases hl)⟩, fun _ e => by cases e⟩
        cases hl
        rw [← hte]
        exact h3 i ((hre _ _).1 hi)
      | some i =>
        rintro ⟨⟨T, hT, h3⟩, _⟩ _
        exact ⟨⟨T, by rw [← hte]; exact hT, h3⟩, fun _ e => by cases e⟩

theorem insertPoint_spec {D B : ℕ} {ops : Ops} (ho : OpsOk D B ops) {g : Geo}
    (hcirc : ∀ T q, g.circ T q = some true → q ∉ T.points) {pop : Heaps} (hp : HeapsOk pop)
    {s : State} (h : StateOk D s) {P : Mesh → Prop}
    (hP0 : ∀ t T m' news, s.mesh.tetras.get t = some T → g.contains T s.mesh.numPoints = some true →
      ops.split { s.mesh with numPoints := s.mesh.numPoints + 1 } t s.mesh.numPoints = some (m', news) → P m')
    (hP : ∀ m t T fi c m' news, Consistent D m → P m → m.tetras.get t = some T →
      (s.mesh.numPoints, fi) ∈ T.slots →
      fi.opposing = some c → c.point ∉ T.points → g.circ T c.point = some true →
      ops.flip m t fi.face = some (m', news) → P m') (fuel : ℕ) :
    (match insertPoint g ops pop fuel s with
      | .done (s', _) => StateOk D s' ∧ s'.mesh.numPoints = s.mesh.numPoints + 1 ∧ P s'.mesh ∧
          ∃ l T, s'.last = some l ∧ s'.mesh.tetras.get l = some T
      | .panic => PanicReason g ops P s
      | .running => True) := by
  unfold insertPoint
  dsimp only
  obtain ⟨h1, h2⟩ := findContaining_live (g := g) (hp { s.mesh with numPoints := s.mesh.numPoints + 1 }) h (fuel := fuel) rfl
  revert h1
  cases findContaining (fun T => g.contains T s.mesh.numPoints) (pop _) fuel
    { s.mesh with numPoints := s.mesh.numPoints + 1 } s.last with
  | running => exact fun _ => trivial
  | panic => exact fun ⟨i, T, hT, hc⟩ => PanicReason.contains i T hT hc
  | done r =>
    cases r with
    | none => exact fun ⟨h3, h4⟩ => PanicReason.notFound h3 h4
    | some t =>
      rintro ⟨T, hT, hcon⟩
      have hcons : Consistent D { s.mesh with numPoints := s.mesh.numPoints + 1 } := h.cons.mesh (Nat.le_succ _)
      obtain ⟨m', news, hsplit, hst, hl, _⟩ := ho.split _ t T s.mesh.numPoints hcons hT (Nat.lt_succ_self _)
        (fun hc => absurd (h.cons.points_lt t T hT _ hc) (Nat.lt_irrefl _))
      dsimp only
      rw [hsplit]
      dsimp only
      have hinv : LoopInv D s.mesh.numPoints P m' s.last news := by
        refine ⟨hst.cons, hst.numPoints, hst.point, ?_, hP0 t T m' news hT hcon hsplit⟩
        obtain ⟨n, hn⟩ := List.exists_mem_of_ne_nil _ hst.nonempty
        exact Or.inl ⟨n, hn, hst.live n hn⟩
      have hloop := (flipLoop_spec ho hcirc hP fuel hinv).1
      revert hloop
      cases flipLoop g.circ ops.flip s.mesh.numPoints fuel m' s.last news 0 with
      | running => exact fun _ => trivial
      | panic =>
        rintro ⟨m1, last1, t1, q1, T1, fi, hI, hT1, hfi, hnone⟩
        dsimp only
        have hmem := mem_of_findFaceOpposite hfi
        unfold flipCheck faceIsInvalid at hnone
        rw [hT1] at hnone
        dsimp only at hnone
        rw [findFace_eq (hI.cons.facesNodup t1 T1 hT1) hmem] at hnone
        dsimp only at hnone
        cases hop : fi.opposing with
        | none => rw [hop] at hnone; cases hnone
        | some c =>
          rw [hop] at hnone
          dsimp only at hnone
          cases hc : g.circ T1 c.point with
          | none => exact PanicReason.circ m1 t1 T1 fi c hI.inv hT1 hmem hop hc
          | some b =>
            rw [hc] at hnone
            cases b with
            | false => cases hnone
            | true =>
              exact PanicReason.flip m1 t1 T1 fi c hI.inv hT1 hmem hop (hcirc _ _ hc) hc hnone
      | done r =>
        obtain ⟨m1, last1, tetras1⟩ := r
        rintro ⟨hI, _⟩
        have hlast : ∃ l T, last1 = some l ∧ m1.tetras.get l = some T := by
          rcases hI.live with ⟨t, ht, _⟩ | h5
          · exact absurd ht List.not_mem_nil
          · exact h5
        refine ⟨⟨hI.cons, ?_⟩, hI.num, hI.inv, hlast⟩
        intro l hl
        obtain ⟨l', T', hl', hT'⟩ := hlast
        rw [show last1 = some l from hl] at hl'
        cases hl'
        exact ⟨T', hT'⟩

theorem away_le (p : ℕ) (M : Mesh) : M.away p ≤ M.tetras.len := List.countP_le_length

theorem insertPoint_terminates {D B : ℕ} {ops : Ops} (ho : OpsOk D B ops) {g : Geo}
    (hcirc : ∀ T q, g.circ T q = some true → q ∉ T.points) {pop : Heaps} (hp : HeapsOk pop)
    {s : State} (h : StateOk D s) {fuel : ℕ} (hfuel : (B + 1) * s.mesh.tetras.len + 1 ≤ fuel) :
    insertPoint g ops pop fuel s ≠ .running := by
  have hB : s.mesh.tetras.len + B * s.mesh.tetras.len + 1 ≤ fuel := by
    rw [Nat.add_mul, Nat.one_mul, Nat.add_comm (B * _)] at hfuel
    exact hfuel
  unfold insertPoint
  dsimp only
  obtain ⟨h1, h2⟩ := findContaining_live (g := g) (hp { s.mesh with numPoints := s.mesh.numPoints + 1 }) h (fuel := fuel) rfl
  have h2' := h2 (show s.mesh.tetras.len < fuel by omega)
  revert h1 h2'
  cases findContaining (fun T => g.contains T s.mesh.numPoints) (pop _) fuel
    { s.mesh with numPoints := s.mesh.numPoints + 1 } s.last with
  | running => exact fun _ h => absurd rfl h
  | panic => exact fun _ _ e => by cases e
  | done r =>
    cases r with
    | none => exact fun _ _ e => by cases e
    | some t =>
      rintro ⟨T, hT, hcon⟩ _
      have hcons : Consistent D { s.mesh with numPoints := s.mesh.numPoints + 1 } := h.cons.mesh (Nat.le_succ _)
      obtain ⟨m', news, hsplit, hst, hl, haw⟩ := ho.split _ t T s.mesh.numPoints hcons hT (Nat.lt_succ_self _)
        (fun hc => absurd (h.cons.points_lt t T hT _ hc) (Nat.lt_irrefl _))
      dsimp only
      rw [hsplit]
      dsimp only
      have hinv : LoopInv D s.mesh.numPoints (fun _ => True) m' s.last news := by
        refine ⟨hst.cons, hst.numPoints, hst.point, ?_, trivial⟩
        obtain ⟨n, hn⟩ := List.exists_mem_of_ne_nil _ hst.nonempty
        exact Or.inl ⟨n, hn, hst.live n hn⟩
      have hloop := (flipLoop_spec ho hcirc (fun _ _ _ _ _ _ _ _ _ _ _ _ _ _ _ => trivial) fuel hinv).2 (by
        have h3 : m'.away s.mesh.numPoints + 1 ≤ s.mesh.tetras.len := by
          rw [haw]
          exact away_le _ _
        have h4 : B * m'.away s.mesh.numPoints + B ≤ B * s.mesh.tetras.len := by
          rw [← Nat.mul_succ]
          exact Nat.mul_le_mul_left B h3
        omega)
      revert hloop
      cases flipLoop g.circ ops.flip s.mesh.numPoints fuel m' s.last news 0 with
      | running => exact fun h => absurd rfl h
      | panic => exact fun _ e => by cases e
      | done r => exact fun _ e => by cases e

end Verif.Delaunay
