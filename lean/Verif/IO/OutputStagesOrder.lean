import Verif.IO.OutputStagesModel
import Mathlib.Data.List.Sort
import Mathlib.Data.List.Nodup
import Mathlib.Tactic.Ring

/-!
# The orders in which the systems of the output stages can run
-/

namespace Verif.OutputStages

/-- the positions of the plugins with a desired field -/
def desired (p : Fields) (plugins : List Plugin) : List ℕ :=
  (plugins.zipIdx.filter (fun f => isDesired p f.1)).map (·.2)

theorem mem_desired (p : Fields) (plugins : List Plugin) (i : ℕ) :
    i ∈ desired p plugins ↔ ∃ f, plugins[i]? = some f ∧ isDesired p f = true := by
  simp only [desired, List.mem_map, List.mem_filter, Prod.exists, List.mem_zipIdx_iff_getElem?]
  constructor
  · rintro ⟨f, j, ⟨h1, h2⟩, rfl⟩
    exact ⟨f, h1, h2⟩
  · rintro ⟨f, h1, h2⟩
    exact ⟨f, i, ⟨h1, h2⟩, rfl⟩

theorem desired_nodup (p : Fields) (plugins : List Plugin) : (desired p plugins).Nodup := by
  unfold desired
  have h : (plugins.zipIdx.map (·.2)).Nodup := by
    rw [List.zipIdx_map_snd]
    exact List.nodup_range'
  exact h.sublist (List.filter_sublist.map _)

theorem foldl_addCreate (p : Fields) (l : List (Plugin × ℕ)) (st : List Sys × List Descriptor) :
    (l.foldl (addCreate p) st).1
      = st.1 ++ ((l.filter (fun f => isDesired p f.1)).map (fun f => Sys.createField f.2)) ∧
    (l.foldl (addCreate p) st).2.map (·.sys)
      = st.2.map (·.sys) ++ ((l.filter (fun f => isDesired p f.1)).map (fun f => Sys.createField f.2)) ∧
    (∀ d ∈ st.2, d ∈ (l.foldl (addCreate p) st).2) ∧
    ∀ pre s post, ((l.filter (fun f => isDesired p f.1)).map (fun f => Sys.createField f.2)) = pre ++ s :: post →
      ∃ d ∈ (l.foldl (addCreate p) st).2, d.sys = s ∧ Sys.createFile ∈ d.after ∧ Sys.closeFile ∈ d.before ∧
        ∀ a, a ∈ st.1 ∨ a ∈ pre → a ∈ d.after := by
  induction l generalizing st with
  | nil =>
    refine ⟨by simp, by simp, fun d hd => hd, ?_⟩
    intro pre s post h
    simp at h
  | cons x l ih =>
    rw [List.foldl_cons]
    obtain ⟨h1, h2, h3, h4⟩ := ih (addCreate p st x)
    by_cases hx : isDesired p x.1 = true
    · have e1 : (addCreate p st x).1 = st.1 ++ [.createField x.2] := by
        unfold addCreate
        rw [if_pos hx]
      obtain ⟨d, e2, e3, e4, e5, e6⟩ : ∃ d, (addCreate p st x).2 = st.2 ++ [d] ∧ d.sys = .createField x.2 ∧
          Sys.createFile ∈ d.after ∧ Sys.closeFile ∈ d.before ∧ ∀ a ∈ st.1, a ∈ d.after := by
        unfold addCreate
        rw [if_pos hx]
        refine ⟨_, rfl, rfl, ?_, by simp, ?_⟩
        · cases st.1 <;> simp
        · intro a ha
          revert ha
          cases st.1 <;> simp
          tauto
      rw [List.filter_cons_of_pos (p := fun f : Plugin × ℕ => isDesired p f.1) hx, List.map_cons]
      refine ⟨by rw [h1, e1]; simp, by rw [h2, e2]; simp [e3], ?_, ?_⟩
      · intro d' hd'
        exact h3 d' (by rw [e2]; exact List.mem_append_left _ hd')
      · intro pre s post hp
        cases pre with
        | nil =>
          rw [List.nil_append, List.cons.injEq] at hp
          refine ⟨d, h3 d (by rw [e2]; simp), e3.trans hp.1, e4, e5, ?_⟩
          rintro a (h | h)
          · exact e6 a h
          · cases h
        | cons b pre =>
          rw [List.cons_append, List.cons.injEq] at hp
          obtain ⟨d', g1, g2, g3, g4, g5⟩ := h4 pre s post hp.2
          refine ⟨d', g1, g2, g3, g4, ?_⟩
          intro a ha
          apply g5
          rw [e1]
          rcases ha with ha | ha
          · exact Or.inl (List.mem_append_left _ ha)
          · rcases List.mem_cons.1 ha with rfl | ha
            · left
              rw [hp.1]
              simp
            · exact Or.inr ha
    · have e : addCreate p st x = st := by
        unfold addCreate
        rw [if_neg hx]
      rw [e] at h1 h2 h3 h4 ⊢
      rw [List.filter_cons_of_neg (p := fun f : Plugin × ℕ => isDesired p f.1) hx]
      exact ⟨h1, h2, h3, h4⟩

/-- an order is the given one if all neighbours are in order -/
theorem order_eq {canon order : List Sys} (hp : order.Perm canon) (nd : canon.Nodup)
    (h : canon.Pairwise (fun a b => order.idxOf a < order.idxOf b)) : order = canon := by
  have ndo : order.Nodup := hp.nodup_iff.2 nd
  have ho : order.Pairwise (fun a b => order.idxOf a < order.idxOf b) := by
    rw [List.pairwise_iff_getElem]
    intro i j hi hj hij
    rw [ndo.idxOf_getElem, ndo.idxOf_getElem]
    exact hij
  exact List.Perm.eq_of_pairwise (le := fun a b => order.idxOf a < order.idxOf b)
    (fun a b _ _ h1 h2 => absurd h1 (by omega)) ho h hp

/-- The order of the stage `CreateOutputFiles` is unique as soon as there is a desired field. -/
theorem create_order (p : Fields) (plugins : List Plugin) (order : List Sys) (hne : desired p plugins ≠ [])
    (h : Allowed (createStage p plugins) order) :
    order = .createFile :: ((desired p plugins).map .createField ++ [.closeFile]) := by
  obtain ⟨_, h2, _, h4⟩ := foldl_addCreate p plugins.zipIdx ([], [])
  have hL : ((plugins.zipIdx.filter (fun f => isDesired p f.1)).map (fun f => Sys.createField f.2))
      = (desired p plugins).map .createField := by
    unfold desired
    rw [List.map_map]
    rfl
  rw [hL] at h2 h4
  have hids : (createStage p plugins).map (·.sys)
      = .createFile :: .closeFile :: (desired p plugins).map .createField := by
    unfold createStage
    rw [List.map_append, h2]
    rfl
  have hperm : order.Perm (.createFile :: ((desired p plugins).map .createField ++ [.closeFile])) := by
    refine h.complete.trans ?_
    rw [hids]
    exact (List.perm_append_singleton _ _).symm.cons _
  have hnd : ((desired p plugins).map Sys.createField).Nodup :=
    (desired_nodup p plugins).map (fun a b hab => by injection hab)
  have hmem : ∀ s, s ∈ order ↔ s = .createFile ∨ s ∈ (desired p plugins).map Sys.createField ∨ s = .closeFile := by
    intro s
    rw [hperm.mem_iff]
    simp
  -- every field is between creation and closing
  have hbetween : ∀ s ∈ (desired p plugins).map Sys.createField,
      order.idxOf Sys.createFile < order.idxOf s ∧ order.idxOf s < order.idxOf Sys.closeFile := by
    intro s hs
    obtain ⟨pre, post, hpp⟩ := List.append_of_mem hs
    obtain ⟨d, g1, g2, g3, g4, _⟩ := h4 pre s post hpp
    have hd : d ∈ createStage p plugins := List.mem_append_right _ g1
    rw [← g2]
    exact ⟨h.after d hd _ g3 ((hmem _).2 (Or.inl rfl)), h.before d hd _ g4 ((hmem _).2 (Or.inr (Or.inr rfl)))⟩
  refine order_eq hperm ?_ ?_
  · rw [List.nodup_cons, List.nodup_append]
    refine ⟨by simp, hnd, by simp, ?_⟩
    intro a ha b hb
    simp only [List.mem_map] at ha
    obtain ⟨i, _, rfl⟩ := ha
    simp only [List.mem_singleton] at hb
    subst hb
    simp
  · rw [List.pairwise_cons, List.pairwise_append]
    refine ⟨?_, ?_, by simp, ?_⟩
    · intro s hs
      rcases List.mem_append.1 hs with hs | hs
      · exact (hbetween s hs).1
      · rw [List.mem_singleton] at hs
        subst hs
        obtain ⟨i, hi⟩ := List.exists_mem_of_ne_nil _ hne
        have := hbetween (.createField i) (List.mem_map_of_mem hi)
        omega
    · rw [List.pairwise_iff_getElem]
      intro i j hil hjl hij
      have hsplit := (List.take_append_drop j ((desired p plugins).map Sys.createField)).symm
      rw [List.drop_eq_getElem_cons hjl] at hsplit
      obtain ⟨d, g1, g2, _, _, g5⟩ := h4 _ _ _ hsplit
      have hd : d ∈ createStage p plugins := List.mem_append_right _ g1
      rw [← g2]
      refine h.after d hd _ (g5 _ (Or.inr ?_)) ((hmem _).2 (Or.inr (Or.inl (List.getElem_mem hil))))
      rw [List.mem_take_iff_getElem]
      exact ⟨i, by omega, rfl⟩
    · intro a ha b hb
      rw [List.mem_singleton] at hb
      subst hb
      exact (hbetween a ha).2

/-- the phase of a system of the stage `Output` -/
def phase : Sys → ℕ
  | .initWait => 0
  | .openFile => 1
  | .writeField _ => 2
  | .closeFile => 3
  | _ => 4

theorem split_phases (l : List Sys) (h : l.Pairwise (fun a b => phase a ≤ phase b)) :
    l = l.filter (fun s => phase s == 0) ++ (l.filter (fun s => phase s == 1) ++ (l.filter (fun s => phase s == 2) ++
      (l.filter (fun s => phase s == 3) ++ l.filter (fun s => phase s == 4)))) := by
  induction l with
  | nil => rfl
  | cons a l ih =>
    rw [List.pairwise_cons] at h
    have hnil : ∀ k, k < phase a → l.filter (fun s => phase s == k) = [] := by
      intro k hk
      rw [List.filter_eq_nil_iff]
      intro s hs
      have := h.1 s hs
      simp
      omega
    have e := ih h.2
    have ha : phase a ≤ 4 := by cases a <;> simp [phase]
    simp only [List.filter_cons]
    rcases Nat.lt_or_ge 3 (phase a) with h4 | h4
    · have e4 : phase a = 4 := by omega
      rw [hnil 0 (by omega), hnil 1 (by omega), hnil 2 (by omega), hnil 3 (by omega)] at e ⊢
      simpa [e4] using e
    · rcases Nat.lt_or_ge 2 (phase a) with h3 | h3
      · have e3 : phase a = 3 := by omega
        rw [hnil 0 (by omega), hnil 1 (by omega), hnil 2 (by omega)] at e ⊢
        simpa [e3] using e
      · rcases Nat.lt_or_ge 1 (phase a) with h2 | h2
        · have e2 : phase a = 2 := by omega
          rw [hnil 0 (by omega), hnil 1 (by omega)] at e ⊢
          simpa [e2] using e
        · rcases Nat.lt_or_ge 0 (phase a) with h1 | h1
          · have e1 : phase a = 1 := by omega
            rw [hnil 0 (by omega)] at e ⊢
            simpa [e1] using e
          · have e0 : phase a = 0 := by omega
            simpa [e0] using e

/-- In the stage `Output` the barriers come first, then the files are opened, then the fields are written in some
order, then the files are closed, and the timer is updated. -/
theorem output_order (p : Fields) (plugins : List Plugin) (order : List Sys)
    (h : Allowed (outputStage p plugins) order) :
    ∃ (is : List ℕ) (tail : List Sys), is.Perm (desired p plugins) ∧ (tail = [.update, .finishWait] ∨ tail = [.finishWait, .update]) ∧
      order = .initWait :: .openFile :: (is.map .writeField ++ .closeFile :: tail) := by
  have hW : ((plugins.zipIdx.filter (fun f => isDesired p f.1)).map
      (fun f => (⟨.writeField f.2, [.openFile], [.closeFile]⟩ : Descriptor))).map (·.sys)
      = (desired p plugins).map .writeField := by
    unfold desired
    rw [List.map_map, List.map_map]
    rfl
  have hids : (outputStage p plugins).map (·.sys)
      = [.openFile, .closeFile, .update, .initWait, .finishWait] ++ (desired p plugins).map .writeField := by
    unfold outputStage
    rw [List.map_append, hW]
    rfl
  have hperm := h.complete
  rw [hids] at hperm
  have hnd : order.Nodup := by
    rw [hperm.nodup_iff, List.nodup_append]
    refine ⟨by simp, (desired_nodup p plugins).map (fun a b hab => by injection hab), ?_⟩
    intro a ha b hb
    simp only [List.mem_map] at hb
    obtain ⟨i, _, rfl⟩ := hb
    rintro rfl
    simp at ha
  have hmem : ∀ s, s ∈ order ↔ s ∈ [Sys.openFile, .closeFile, .update, .initWait, .finishWait] ∨
      s ∈ (desired p plugins).map Sys.writeField := by
    intro s
    rw [hperm.mem_iff, List.mem_append]
  have hd : ∀ d ∈ [(⟨.openFile, [], []⟩ : Descriptor), ⟨.closeFile, [.openFile], []⟩, ⟨.update, [.closeFile], []⟩,
      ⟨.initWait, [], [.openFile]⟩, ⟨.finishWait, [.closeFile], []⟩], d ∈ outputStage p plugins :=
    fun d hd => List.mem_append_left _ hd
  have c1 : order.idxOf Sys.openFile < order.idxOf Sys.closeFile :=
    h.after ⟨.closeFile, [.openFile], []⟩ (hd _ (by simp)) _ (by simp) ((hmem _).2 (by simp))
  have c2 : order.idxOf Sys.closeFile < order.idxOf Sys.update :=
    h.after ⟨.update, [.closeFile], []⟩ (hd _ (by simp)) _ (by simp) ((hmem _).2 (by simp))
  have c3 : order.idxOf Sys.initWait < order.idxOf Sys.openFile :=
    h.before ⟨.initWait, [], [.openFile]⟩ (hd _ (by simp)) _ (by simp) ((hmem _).2 (by simp))
  have c4 : order.idxOf Sys.closeFile < order.idxOf Sys.finishWait :=
    h.after ⟨.finishWait, [.closeFile], []⟩ (hd _ (by simp)) _ (by simp) ((hmem _).2 (by simp))
  have c5 : ∀ i ∈ desired p plugins, order.idxOf Sys.openFile < order.idxOf (Sys.writeField i) ∧
      order.idxOf (Sys.writeField i) < order.idxOf Sys.closeFile := by
    intro i hi
    have hmem' : (⟨.writeField i, [.openFile], [.closeFile]⟩ : Descriptor) ∈ outputStage p plugins := by
      refine List.mem_append_right _ ?_
      unfold desired at hi
      obtain ⟨f, hf, rfl⟩ := List.mem_map.1 hi
      exact List.mem_map.2 ⟨f, hf, rfl⟩
    exact ⟨h.after _ hmem' _ (by simp) ((hmem _).2 (by simp)), h.before _ hmem' _ (by simp) ((hmem _).2 (by simp))⟩
  have hkey : ∀ a ∈ order, ∀ b ∈ order, phase a < phase b → order.idxOf a < order.idxOf b := by
    intro a ha b hb hab
    have ca : (∃ i ∈ desired p plugins, a = .writeField i) ∨
        a ∈ [Sys.openFile, .closeFile, .update, .initWait, .finishWait] := by
      rcases (hmem a).1 ha with h | h
      · exact Or.inr h
      · obtain ⟨i, hi, rfl⟩ := List.mem_map.1 h
        exact Or.inl ⟨i, hi, rfl⟩
    have cb : (∃ i ∈ desired p plugins, b = .writeField i) ∨
        b ∈ [Sys.openFile, .closeFile, .update, .initWait, .finishWait] := by
      rcases (hmem b).1 hb with h | h
      · exact Or.inr h
      · obtain ⟨i, hi, rfl⟩ := List.mem_map.1 h
        exact Or.inl ⟨i, hi, rfl⟩
    simp only [List.mem_cons, List.not_mem_nil, or_false] at ca cb
    rcases ca with ⟨i, hi, rfl⟩ | rfl | rfl | rfl | rfl | rfl <;>
    rcases cb with ⟨j, hj, rfl⟩ | rfl | rfl | rfl | rfl | rfl <;>
    first
      | (simp [phase] at hab; done)
      | (have := c5 i hi; omega)
      | (have := c5 j hj; omega)
      | omega
  have hpw : order.Pairwise (fun a b => phase a ≤ phase b) := by
    rw [List.pairwise_iff_getElem]
    intro i j hi hj hij
    by_contra hlt
    have := hkey _ (List.getElem_mem hj) _ (List.getElem_mem hi) (by omega)
    rw [hnd.idxOf_getElem, hnd.idxOf_getElem] at this
    omega
  have hsplit := split_phases order hpw
  have f (k : ℕ) := hperm.filter (fun s => phase s == k)
  have hwk : ∀ k, k ≠ 2 → ((desired p plugins).map Sys.writeField).filter (fun s => phase s == k) = [] := by
    intro k hk
    rw [List.filter_eq_nil_iff]
    intro s hs
    obtain ⟨i, _, rfl⟩ := List.mem_map.1 hs
    simp [phase]
    omega
  have hw2 : ((desired p plugins).map Sys.writeField).filter (fun s => phase s == 2)
      = (desired p plugins).map Sys.writeField := by
    rw [List.filter_eq_self]
    intro s hs
    obtain ⟨i, _, rfl⟩ := List.mem_map.1 hs
    rfl
  have f0 := f 0
  have f1 := f 1
  have f2 := f 2
  have f3 := f 3
  have f4 := f 4
  rw [List.filter_append, hwk _ (by omega)] at f0 f1 f3 f4
  rw [List.filter_append, hw2] at f2
  have g0 : order.filter (fun s => phase s == 0) = [.initWait] := List.perm_singleton.1 f0
  have g1 : order.filter (fun s => phase s == 1) = [.openFile] := List.perm_singleton.1 f1
  have g3 : order.filter (fun s => phase s == 3) = [.closeFile] := List.perm_singleton.1 f3
  have g2 : (order.filter (fun s => phase s == 2)).Perm ((desired p plugins).map Sys.writeField) := f2
  have g4 : (order.filter (fun s => phase s == 4)).Perm [.update, .finishWait] := f4
  obtain ⟨is, his, hiseq⟩ : ∃ is : List ℕ, is.Perm (desired p plugins) ∧
      order.filter (fun s => phase s == 2) = is.map .writeField := by
    let g : Sys → ℕ := fun s => match s with | .writeField i => i | _ => 0
    refine ⟨(order.filter (fun s => phase s == 2)).map g, ?_, ?_⟩
    · have := g2.map g
      rw [List.map_map] at this
      simpa [Function.comp_def, g] using this
    · rw [List.map_map]
      conv_lhs => rw [← List.map_id (order.filter (fun s => phase s == 2))]
      apply List.map_congr_left
      intro s hs
      obtain ⟨i, _, rfl⟩ := List.mem_map.1 (g2.mem_iff.1 hs)
      rfl
  refine ⟨is, order.filter (fun s => phase s == 4), his, ?_, ?_⟩
  · have hl := g4.length_eq
    match hh : order.filter (fun s => phase s == 4), hl with
    | [x, y], _ =>
      rw [hh] at g4
      have hx : x ∈ [Sys.update, .finishWait] := g4.mem_iff.1 (by simp)
      have hy : y ∈ [Sys.update, .finishWait] := g4.mem_iff.1 (by simp)
      have hn : [x, y].Nodup := g4.nodup_iff.2 (by simp)
      simp only [List.mem_cons, List.not_mem_nil, or_false] at hx hy
      rcases hx with rfl | rfl <;> rcases hy with rfl | rfl <;> simp at hn ⊢
  · rw [g0, g1, g3, hiseq] at hsplit
    exact hsplit

end Verif.OutputStages
