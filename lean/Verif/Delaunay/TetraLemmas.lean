import Verif.Delaunay.Spec

/-! # Lemmas about single tetras and about rewriting neighbour data -/

namespace Verif.Delaunay

/-- What a tetra looks like apart from its neighbour data. -/
def Tetra.shape (t : Tetra) : List (ℕ × ℕ × Bool) := t.slots.map fun s => (s.1, s.2.face, s.2.flipped)

theorem mem_points {t : Tetra} {p : ℕ} {s : FaceInfo} (h : (p, s) ∈ t.slots) : p ∈ t.points :=
  List.mem_map_of_mem h

theorem exists_slot {t : Tetra} {p : ℕ} (h : p ∈ t.points) : ∃ s, (p, s) ∈ t.slots := by
  obtain ⟨⟨q, s⟩, hs, rfl⟩ := List.mem_map.1 h
  exact ⟨s, hs⟩

theorem slot_unique {t : Tetra} (h : t.points.Nodup) {p : ℕ} {s s' : FaceInfo} (h1 : (p, s) ∈ t.slots)
    (h2 : (p, s') ∈ t.slots) : s = s' := by
  have := List.inj_on_of_nodup_map h h1 h2 rfl
  exact congrArg Prod.snd this

/-- The faces of a tetra are different. -/
def Tetra.FacesNodup (t : Tetra) : Prop := (t.slots.map fun s => s.2.face).Nodup

theorem slot_of_face {t : Tetra} (h : t.FacesNodup) {p p' : ℕ} {s s' : FaceInfo} (h1 : (p, s) ∈ t.slots)
    (h2 : (p', s') ∈ t.slots) (he : s.face = s'.face) : (p, s) = (p', s') :=
  List.inj_on_of_nodup_map h h1 h2 he

theorem find?_eq_of_unique {α : Type} {P : α → Bool} {l : List α} {x : α} (hx : x ∈ l) (hp : P x = true)
    (hu : ∀ y ∈ l, P y = true → y = x) : l.find? P = some x := by
  cases h : l.find? P with
  | none => exact absurd hp (by simpa using List.find?_eq_none.1 h x hx)
  | some y =>
    rw [hu y (List.mem_of_find?_eq_some h) (List.find?_some h)]

theorem findFaceOpposite_eq {t : Tetra} (h : t.points.Nodup) {p : ℕ} {s : FaceInfo} (h1 : (p, s) ∈ t.slots) :
    t.findFaceOpposite p = some s := by
  unfold Tetra.findFaceOpposite
  rw [find?_eq_of_unique h1 (by simp)]
  · rfl
  · rintro ⟨q, s'⟩ hy hq
    have : q = p := by simpa using hq
    subst this
    rw [slot_unique h hy h1]

theorem findPointOpposite_eq {t : Tetra} (h : t.FacesNodup) {p : ℕ} {s : FaceInfo} (h1 : (p, s) ∈ t.slots) :
    t.findPointOpposite s.face = some p := by
  unfold Tetra.findPointOpposite
  rw [find?_eq_of_unique h1 (by simp)]
  · rfl
  · rintro ⟨q, s'⟩ hy hq
    exact slot_of_face h hy h1 (by simpa using hq)

theorem findFace_eq {t : Tetra} (h : t.FacesNodup) {p : ℕ} {s : FaceInfo} (h1 : (p, s) ∈ t.slots) :
    t.findFace s.face = some s := by
  unfold Tetra.findFace
  apply find?_eq_of_unique (List.mem_map_of_mem (f := Prod.snd) h1) (by simp)
  intro y hy hq
  obtain ⟨⟨q, s'⟩, hs, rfl⟩ := List.mem_map.1 hy
  exact congrArg Prod.snd (slot_of_face h hs h1 (by simpa using hq))

theorem mem_of_findFaceOpposite {t : Tetra} {p : ℕ} {s : FaceInfo} (h : t.findFaceOpposite p = some s) :
    (p, s) ∈ t.slots := by
  unfold Tetra.findFaceOpposite at h
  obtain ⟨⟨q, s'⟩, hf, rfl⟩ := Option.map_eq_some_iff.1 h
  have h1 := List.mem_of_find?_eq_some hf
  have h2 := List.find?_some hf
  have : q = p := by simpa using h2
  subst this
  exact h1

theorem mem_of_findPointOpposite {t : Tetra} {p f : ℕ} (h : t.findPointOpposite f = some p) :
    ∃ s, (p, s) ∈ t.slots ∧ s.face = f := by
  unfold Tetra.findPointOpposite at h
  obtain ⟨⟨q, s'⟩, hf, rfl⟩ := Option.map_eq_some_iff.1 h
  exact ⟨s', List.mem_of_find?_eq_some hf, by simpa using List.find?_some hf⟩

theorem mem_of_findFace {t : Tetra} {f : ℕ} {s : FaceInfo} (h : t.findFace f = some s) :
    (∃ p, (p, s) ∈ t.slots) ∧ s.face = f := by
  unfold Tetra.findFace at h
  have h1 := List.mem_of_find?_eq_some h
  have h2 := List.find?_some h
  obtain ⟨⟨q, s'⟩, hs, rfl⟩ := List.mem_map.1 h1
  exact ⟨⟨q, hs⟩, by simpa using h2⟩

/-! ### Rewriting -/

/-- The neighbour data of face `f` of tetra `t` after the list of writes, if it was `d` before. -/
def lastWrite (ws : List (ℕ × ℕ × Conn)) (t f : ℕ) (d : Option Conn) : Option Conn :=
  ws.foldl (fun d w => if w.1 = t ∧ w.2.1 = f then some w.2.2 else d) d

/-- The tetra with index `t` after a list of writes. -/
def Tetra.rewire (t : ℕ) (ws : List (ℕ × ℕ × Conn)) (T : Tetra) : Tetra :=
  ⟨T.slots.map fun s => (s.1, { s.2 with opposing := lastWrite ws t s.2.face s.2.opposing })⟩

theorem lastWrite_none {ws : List (ℕ × ℕ × Conn)} {t f : ℕ} {d : Option Conn}
    (h : ∀ w ∈ ws, ¬(w.1 = t ∧ w.2.1 = f)) : lastWrite ws t f d = d := by
  induction ws with
  | nil => rfl
  | cons w ws ih =>
    unfold lastWrite
    rw [List.foldl_cons, if_neg (h w List.mem_cons_self)]
    exact ih (fun w' hw' => h w' (List.mem_cons_of_mem _ hw'))

theorem lastWrite_cons (w : ℕ × ℕ × Conn) (ws : List (ℕ × ℕ × Conn)) (t f : ℕ) (d : Option Conn) :
    lastWrite (w :: ws) t f d = lastWrite ws t f (if w.1 = t ∧ w.2.1 = f then some w.2.2 else d) := rfl

theorem lastWrite_append (ws ws' : List (ℕ × ℕ × Conn)) (t f : ℕ) (d : Option Conn) :
    lastWrite (ws ++ ws') t f d = lastWrite ws' t f (lastWrite ws t f d) := by
  unfold lastWrite
  rw [List.foldl_append]

theorem lastWrite_or (ws : List (ℕ × ℕ × Conn)) (t f : ℕ) (d : Option Conn) (c : Conn)
    (h : ∀ w ∈ ws, w.1 = t → w.2.1 = f → w.2.2 = c) : lastWrite ws t f d = d ∨ lastWrite ws t f d = some c := by
  induction ws generalizing d with
  | nil => exact Or.inl rfl
  | cons w ws ih =>
    rw [lastWrite_cons]
    split_ifs with hw
    · rw [h w List.mem_cons_self hw.1 hw.2]
      rcases ih (some c) (fun w' hw' => h w' (List.mem_cons_of_mem _ hw')) with h1 | h1 <;> exact Or.inr h1
    · exact ih d (fun w' hw' => h w' (List.mem_cons_of_mem _ hw'))

/-- If all writes to the face write the same data and there is one, this data is the result. -/
theorem lastWrite_some {ws : List (ℕ × ℕ × Conn)} {t f : ℕ} {d : Option Conn} {c : Conn}
    (h : ∀ w ∈ ws, w.1 = t → w.2.1 = f → w.2.2 = c) (he : (t, f, c) ∈ ws) : lastWrite ws t f d = some c := by
  induction ws generalizing d with
  | nil => exact absurd he List.not_mem_nil
  | cons w ws ih =>
    rw [lastWrite_cons]
    have h' := fun w' (hw' : w' ∈ ws) => h w' (List.mem_cons_of_mem _ hw')
    rcases List.mem_cons.1 he with rfl | hm
    · rw [if_pos ⟨rfl, rfl⟩]
      rcases lastWrite_or ws t f (some c) c h' with h1 | h1 <;> exact h1
    · exact ih h' hm

theorem rewire_nil (t : ℕ) (T : Tetra) : T.rewire t [] = T := by
  unfold Tetra.rewire
  have : T.slots.map (fun s => (s.1, { s.2 with opposing := lastWrite [] t s.2.face s.2.opposing })) =
      T.slots := by
    conv_rhs => rw [← List.map_id T.slots]
    apply List.map_congr_left
    intro s _
    rfl
  rw [this]

theorem rewire_append (t : ℕ) (ws ws' : List (ℕ × ℕ × Conn)) (T : Tetra) :
    (T.rewire t ws).rewire t ws' = T.rewire t (ws ++ ws') := by
  unfold Tetra.rewire
  dsimp only
  rw [List.map_map]
  congr 1
  apply List.map_congr_left
  intro s _
  dsimp only [Function.comp]
  rw [lastWrite_append]

theorem rewire_other {t : ℕ} {ws : List (ℕ × ℕ × Conn)} (h : ∀ w ∈ ws, w.1 ≠ t) (T : Tetra) :
    T.rewire t ws = T := by
  unfold Tetra.rewire
  have : T.slots.map (fun s => (s.1, { s.2 with opposing := lastWrite ws t s.2.face s.2.opposing })) =
      T.slots := by
    conv_rhs => rw [← List.map_id T.slots]
    apply List.map_congr_left
    intro s _
    rw [lastWrite_none (fun w hw hc => h w hw hc.1)]
    rfl
  rw [this]

theorem rewire_points (t : ℕ) (ws : List (ℕ × ℕ × Conn)) (T : Tetra) : (T.rewire t ws).points = T.points := by
  unfold Tetra.rewire Tetra.points
  rw [List.map_map]
  rfl

theorem rewire_shape (t : ℕ) (ws : List (ℕ × ℕ × Conn)) (T : Tetra) : (T.rewire t ws).shape = T.shape := by
  unfold Tetra.rewire Tetra.shape
  rw [List.map_map]
  rfl

theorem rewire_faces_map (t : ℕ) (ws : List (ℕ × ℕ × Conn)) (T : Tetra) :
    (T.rewire t ws).slots.map (fun s => s.2.face) = T.slots.map fun s => s.2.face := by
  unfold Tetra.rewire
  rw [List.map_map]
  rfl

theorem rewire_facesNodup {t : ℕ} {ws : List (ℕ × ℕ × Conn)} {T : Tetra} (h : T.FacesNodup) :
    (T.rewire t ws).FacesNodup := by
  unfold Tetra.FacesNodup
  rw [rewire_faces_map]
  exact h

theorem mem_rewire {t : ℕ} {ws : List (ℕ × ℕ × Conn)} {T : Tetra} {p : ℕ} {s : FaceInfo} :
    (p, s) ∈ (T.rewire t ws).slots ↔
      ∃ s0, (p, s0) ∈ T.slots ∧ s = { s0 with opposing := lastWrite ws t s0.face s0.opposing } := by
  unfold Tetra.rewire
  dsimp only
  rw [List.mem_map]
  constructor
  · rintro ⟨⟨q, s0⟩, hm, he⟩
    cases he
    exact ⟨s0, hm, rfl⟩
  · rintro ⟨s0, hm, rfl⟩
    exact ⟨(p, s0), hm, rfl⟩

theorem setFirst_eq {f : ℕ} {c : Conn} {l : List (ℕ × FaceInfo)} (hn : (l.map fun s => s.2.face).Nodup)
    (hf : f ∈ l.map fun s => s.2.face) :
    setFirst f c l = some (l.map fun s =>
      (s.1, { s.2 with opposing := if s.2.face = f then some c else s.2.opposing })) := by
  induction l with
  | nil => exact absurd hf List.not_mem_nil
  | cons s l ih =>
    rw [List.map_cons, List.nodup_cons] at hn
    unfold setFirst
    by_cases h : s.2.face = f
    · rw [if_pos h, List.map_cons, if_pos h]
      congr 2
      conv_lhs => rw [← List.map_id l]
      apply List.map_congr_left
      intro s' hs'
      have : s'.2.face ≠ f := by
        intro h'
        apply hn.1
        rw [h, ← h']
        exact List.mem_map_of_mem hs'
      rw [if_neg this]
      rfl
    · rw [if_neg h, ih hn.2, List.map_cons, if_neg h]
      · rfl
      · rcases List.mem_cons.1 hf with h' | h'
        · exact absurd h'.symm h
        · exact h'

theorem setOpposing_eq {T : Tetra} (h : T.FacesNodup) {t f : ℕ} {c : Conn}
    (hf : f ∈ T.slots.map fun s => s.2.face) : T.setOpposing f c = some (T.rewire t [(t, f, c)]) := by
  unfold Tetra.setOpposing
  rw [setFirst_eq h hf]
  unfold Tetra.rewire lastWrite
  rw [Option.map_some]
  congr 2
  apply List.map_congr_left
  intro s _
  simp only [List.foldl_cons, List.foldl_nil, true_and]
  by_cases h' : s.2.face = f
  · rw [if_pos h', if_pos h'.symm]
  · rw [if_neg h', if_neg (Ne.symm h')]

/-- All tetras of the mesh have different faces. -/
def Mesh.FacesNodup (m : Mesh) : Prop := ∀ i T, m.tetras.get i = some T → T.FacesNodup

/-- The effect of a list of writes. -/
structure Rewired (ws : List (ℕ × ℕ × Conn)) (m m' : Mesh) : Prop where
  ok : m'.tetras.Ok
  faces : m'.faces = m.faces
  numPoints : m'.numPoints = m.numPoints
  next : m'.tetras.next = m.tetras.next
  get : ∀ t, m'.tetras.get t = (m.tetras.get t).map (Tetra.rewire t ws)
  shapes : m'.tetras.entries.map (fun e => e.2.shape) = m.tetras.entries.map (fun e => e.2.shape)

theorem Rewired.facesNodup {ws : List (ℕ × ℕ × Conn)} {m m' : Mesh} (h : Rewired ws m m')
    (hn : m.FacesNodup) : m'.FacesNodup := by
  intro i T hT
  rw [h.get] at hT
  obtain ⟨U, hU, rfl⟩ := Option.map_eq_some_iff.1 hT
  exact rewire_facesNodup (hn i U hU)

theorem Rewired.trans {ws ws' : List (ℕ × ℕ × Conn)} {m m' m'' : Mesh} (h : Rewired ws m m')
    (h' : Rewired ws' m' m'') : Rewired (ws ++ ws') m m'' where
  ok := h'.ok
  faces := h'.faces.trans h.faces
  numPoints := h'.numPoints.trans h.numPoints
  next := h'.next.trans h.next
  get t := by
    rw [h'.get, h.get, Option.map_map]
    congr 1
    funext T
    exact rewire_append t ws ws' T
  shapes := h'.shapes.trans h.shapes

/-- A write addresses an existing face of an existing tetra. -/
def Mesh.HasFace (m : Mesh) (t f : ℕ) : Prop :=
  ∃ T, m.tetras.get t = some T ∧ f ∈ T.slots.map fun s => s.2.face

theorem Rewired.hasFace {ws : List (ℕ × ℕ × Conn)} {m m' : Mesh} (h : Rewired ws m m') {t f : ℕ}
    (hf : m.HasFace t f) : m'.HasFace t f := by
  obtain ⟨T, hT, hm⟩ := hf
  refine ⟨T.rewire t ws, by rw [h.get, hT]; rfl, ?_⟩
  rw [rewire_faces_map]
  exact hm

theorem setOpposing_spec {m : Mesh} (hok : m.tetras.Ok) (hn : m.FacesNodup) {t f : ℕ} (c : Conn)
    (hf : m.HasFace t f) : ∃ m', m.setOpposing t f c = some m' ∧ Rewired [(t, f, c)] m m' := by
  obtain ⟨T, hT, hm⟩ := hf
  unfold Mesh.setOpposing
  rw [hT]
  dsimp only
  rw [setOpposing_eq (t := t) (hn t T hT) hm]
  dsimp only
  obtain ⟨a, ha⟩ := Arena.exists_set hT (T.rewire t [(t, f, c)])
  rw [ha]
  refine ⟨_, rfl, Arena.set_ok hok ha, rfl, rfl, Arena.set_next ha, ?_, ?_⟩
  · intro i
    dsimp only
    rw [Arena.get_set hok ha]
    split_ifs with h
    · subst h
      rw [hT]
      rfl
    · cases hi : m.tetras.get i with
      | none => rfl
      | some U =>
        rw [Option.map_some, rewire_other]
        intro w hw
        rw [List.mem_singleton.1 hw]
        exact Ne.symm h
  · dsimp only
    exact Arena.map_set hok hT ha Tetra.shape (rewire_shape _ _ _)

theorem connect_spec {ws : List (ℕ × ℕ × Conn)} {m : Mesh} (hok : m.tetras.Ok) (hn : m.FacesNodup)
    (hf : ∀ w ∈ ws, m.HasFace w.1 w.2.1) : ∃ m', m.connect ws = some m' ∧ Rewired ws m m' := by
  induction ws generalizing m with
  | nil =>
    refine ⟨m, rfl, hok, rfl, rfl, rfl, ?_, rfl⟩
    intro t
    cases m.tetras.get t with
    | none => rfl
    | some T => rw [Option.map_some, rewire_nil]
  | cons w ws ih =>
    obtain ⟨m1, h1, r1⟩ := setOpposing_spec hok hn w.2.2 (hf w List.mem_cons_self)
    obtain ⟨m2, h2, r2⟩ := ih r1.ok (r1.facesNodup hn)
      (fun w' hw' => r1.hasFace (hf w' (List.mem_cons_of_mem _ hw')))
    refine ⟨m2, ?_, r1.trans r2⟩
    unfold Mesh.connect
    rw [h1]
    exact h2

/-- The writes performed by `update_connections_in_existing_tetra`. -/
def backLinks (k : ℕ) : List (ℕ × FaceInfo) → List (ℕ × ℕ × Conn)
  | [] => []
  | s :: l =>
    match s.2.opposing with
    | none => backLinks k l
    | some c => (c.tetra, s.2.face, ⟨k, s.1⟩) :: backLinks k l

theorem mem_backLinks {k : ℕ} {l : List (ℕ × FaceInfo)} {w : ℕ × ℕ × Conn} :
    w ∈ backLinks k l ↔ ∃ p s c, (p, s) ∈ l ∧ s.opposing = some c ∧ w = (c.tetra, s.face, ⟨k, p⟩) := by
  induction l with
  | nil => simp [backLinks]
  | cons a l ih =>
    unfold backLinks
    cases ha : a.2.opposing with
    | none =>
      dsimp only
      rw [ih]
      constructor
      · rintro ⟨p, s, c, h1, h2, h3⟩
        exact ⟨p, s, c, List.mem_cons_of_mem _ h1, h2, h3⟩
      · rintro ⟨p, s, c, h1, h2, h3⟩
        rcases List.mem_cons.1 h1 with rfl | h1
        · rw [ha] at h2
          cases h2
        · exact ⟨p, s, c, h1, h2, h3⟩
    | some c0 =>
      dsimp only
      rw [List.mem_cons, ih]
      constructor
      · rintro (rfl | ⟨p, s, c, h1, h2, h3⟩)
        · exact ⟨a.1, a.2, c0, List.mem_cons_self, ha, rfl⟩
        · exact ⟨p, s, c, List.mem_cons_of_mem _ h1, h2, h3⟩
      · rintro ⟨p, s, c, h1, h2, h3⟩
        rcases List.mem_cons.1 h1 with rfl | h1
        · rw [ha] at h2
          cases h2
          exact Or.inl h3
        · exact Or.inr ⟨p, s, c, h1, h2, h3⟩

theorem linkBack_eq (k : ℕ) (l : List (ℕ × FaceInfo)) (m : Mesh) :
    linkBack k l m = m.connect (backLinks k l) := by
  induction l generalizing m with
  | nil => rfl
  | cons a l ih =>
    unfold linkBack backLinks
    cases ha : a.2.opposing with
    | none => exact ih m
    | some c =>
      dsimp only
      unfold Mesh.connect
      congr 1
      funext m'
      exact ih m'

/-- All backward links of a list of new tetras with indices from `k` on. -/
def allBack (k : ℕ) : List Tetra → List (ℕ × ℕ × Conn)
  | [] => []
  | t :: ts => backLinks k t.slots ++ allBack (k + 1) ts

theorem mem_allBack {k : ℕ} {ts : List Tetra} {w : ℕ × ℕ × Conn} :
    w ∈ allBack k ts ↔ ∃ j T p s c, ts[j]? = some T ∧ (p, s) ∈ T.slots ∧ s.opposing = some c ∧
      w = (c.tetra, s.face, ⟨k + j, p⟩) := by
  induction ts generalizing k with
  | nil => simp [allBack]
  | cons t ts ih =>
    unfold allBack
    rw [List.mem_append, mem_backLinks, ih]
    constructor
    · rintro (⟨p, s, c, h1, h2, h3⟩ | ⟨j, T, p, s, c, h0, h1, h2, h3⟩)
      · exact ⟨0, t, p, s, c, rfl, h1, h2, h3⟩
      · refine ⟨j + 1, T, p, s, c, h0, h1, h2, ?_⟩
        rw [h3, Nat.add_assoc, Nat.add_comm 1 j]
    · rintro ⟨j, T, p, s, c, h0, h1, h2, h3⟩
      cases j with
      | zero =>
        cases h0
        exact Or.inl ⟨p, s, c, h1, h2, h3⟩
      | succ j =>
        refine Or.inr ⟨j, T, p, s, c, h0, h1, h2, ?_⟩
        rw [h3, Nat.add_assoc, Nat.add_comm 1 j]

/-- The effect of inserting tetras which refer to existing tetras only. -/
structure Inserted (ts : List Tetra) (m m' : Mesh) : Prop where
  ok : m'.tetras.Ok
  faces : m'.faces = m.faces
  numPoints : m'.numPoints = m.numPoints
  next : m'.tetras.next = m.tetras.next + ts.length
  old : ∀ t, t < m.tetras.next →
    m'.tetras.get t = (m.tetras.get t).map (Tetra.rewire t (allBack m.tetras.next ts))
  new : ∀ j, m'.tetras.get (m.tetras.next + j) = ts[j]?
  shapes : m'.tetras.entries.map (fun e => e.2.shape) =
    m.tetras.entries.map (fun e => e.2.shape) ++ ts.map Tetra.shape

theorem insertTetras_spec {ts : List Tetra} {m : Mesh} (hok : m.tetras.Ok) (hn : m.FacesNodup)
    (hts : ∀ T ∈ ts, T.FacesNodup)
    (hf : ∀ T ∈ ts, ∀ p s, (p, s) ∈ T.slots → ∀ c, s.opposing = some c → m.HasFace c.tetra s.face) :
    ∃ m', m.insertTetras ts = some m' ∧ Inserted ts m m' := by
  induction ts generalizing m with
  | nil =>
    refine ⟨m, rfl, hok, rfl, rfl, rfl, ?_, ?_, ?_⟩
    · intro t _
      cases m.tetras.get t with
      | none => rfl
      | some T => rw [Option.map_some]; exact congrArg some (rewire_nil t T).symm
    · intro j
      exact hok.get_none (Nat.le_add_right _ _)
    · rw [List.map_nil, List.append_nil]
  | cons T ts ih =>
    set mi : Mesh := { m with tetras := (m.tetras.insert T).1 } with hmi
    have hgi : ∀ i, mi.tetras.get i = if i = m.tetras.next then some T else m.tetras.get i :=
      Arena.get_insert hok T
    have hni : mi.FacesNodup := by
      intro i U hU
      rw [hgi] at hU
      split_ifs at hU with h
      · cases hU
        exact hts _ List.mem_cons_self
      · exact hn i U hU
    have hfi : ∀ t f, m.HasFace t f → mi.HasFace t f := by
      rintro t f ⟨U, hU, hm⟩
      refine ⟨U, ?_, hm⟩
      rw [hgi, if_neg (Nat.ne_of_lt (hok.get_lt hU))]
      exact hU
    have hlt : ∀ t f, m.HasFace t f → t < m.tetras.next := by
      rintro t f ⟨U, hU, _⟩
      exact hok.get_lt hU
    have hback : ∀ w ∈ backLinks m.tetras.next T.slots, m.HasFace w.1 w.2.1 := by
      intro w hw
      obtain ⟨p, s, c, h1, h2, rfl⟩ := mem_backLinks.1 hw
      exact hf T List.mem_cons_self p s h1 c h2
    obtain ⟨m1, h1, r1⟩ := connect_spec (ws := backLinks m.tetras.next T.slots) (m := mi)
      (Arena.insert_ok hok T) hni (fun w hw => hfi _ _ (hback w hw))
    obtain ⟨m2, h2, r2⟩ := ih r1.ok (r1.facesNodup hni) (fun U hU => hts U (List.mem_cons_of_mem _ hU))
      (fun U hU p s hs c hc => r1.hasFace (hfi _ _ (hf U (List.mem_cons_of_mem _ hU) p s hs c hc)))
    have hnext : m1.tetras.next = m.tetras.next + 1 := r1.next
    refine ⟨m2, ?_, r2.ok, r2.faces.trans r1.faces, r2.numPoints.trans r1.numPoints, ?_, ?_, ?_, ?_⟩
    · unfold Mesh.insertTetras Mesh.insertTetra
      rw [linkBack_eq, h1]
      exact h2
    · rw [r2.next, hnext, List.length_cons]
      omega
    · intro t ht
      rw [r2.old t (by omega), r1.get, hgi, if_neg (Nat.ne_of_lt ht), Option.map_map, hnext]
      congr 1
      funext U
      exact rewire_append _ _ _ _
    · intro j
      cases j with
      | zero =>
        rw [Nat.add_zero, r2.old _ (by omega), r1.get, hgi, if_pos rfl, Option.map_some, Option.map_some]
        rw [rewire_other, rewire_other]
        · rfl
        · intro w hw
          exact Nat.ne_of_lt (hlt _ _ (hback w hw))
        · intro w hw
          obtain ⟨j, U, p, s, c, h0, h1, h2, rfl⟩ := mem_allBack.1 hw
          exact Nat.ne_of_lt (hlt _ _ (hf U (List.mem_cons_of_mem _ (List.mem_of_getElem? h0)) p s h1 c h2))
      | succ j =>
        have := r2.new j
        rw [hnext] at this
        rw [List.getElem?_cons_succ, ← this]
        congr 1
        omega
    · rw [r2.shapes, r1.shapes]
      simp [hmi, Arena.insert]

end Verif.Delaunay
