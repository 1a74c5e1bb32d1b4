import Verif.IO.OutputStagesOrder
import Verif.IO.FileDistributionProps

/-!
# What the systems of the output stages do, one after the other
-/

namespace Verif.OutputStages
open Verif.FileDist

section put
variable {A B : Type*} [DecidableEq A]

theorem put_self (f : A → B) (a : A) (b : B) : put f a b a = b := by simp [put]

theorem put_ne (f : A → B) {a x : A} (b : B) (h : x ≠ a) : put f a b x = f x := by simp [put, h]

theorem put_put (f : A → B) (a : A) (b b' : B) : put (put f a b) a b' = put f a b' := by
  funext x
  unfold put
  split <;> rfl

theorem put_eq (f : A → B) (a : A) (b : B) (h : f a = b) : put f a b = f := by
  funext x
  unfold put
  split
  · next hx => rw [hx, h]
  · rfl

end put

variable {K : Type*} [Field K] [LinearOrder K] {V α : Type}

/-- Different plugins write attributes, or datasets, of different names. -/
structure DistinctNames (plugins : List Plugin) : Prop where
  attributes : ∀ (i j : ℕ) (f g : Plugin), plugins[i]? = some f → plugins[j]? = some g → f.kind = .attr →
    g.kind = .attr → f.name = g.name → i = j
  datasets : ∀ (i j : ℕ) (f g : Plugin), plugins[i]? = some f → plugins[j]? = some g → f.kind ≠ .attr →
    g.kind ≠ .attr → f.datasetName = g.datasetName → i = j

theorem create_fields (cfg : Config K) (frame : Frame K V α) (rank : ℕ) (hdist : DistinctNames cfg.plugins)
    (st : RankState K) (regions : List Region) (hfiles : st.files = some regions)
    (hstart : regions.all (fun r => r.start == 0) = true)
    (l : List ℕ) (nd : l.Nodup) (hl : ∀ i ∈ l, ∃ f, cfg.plugins[i]? = some f) (disk : Disk V α) (c : Content V α)
    (hc : disk st.timer.snapshotNum = some c)
    (fresh : ∀ i ∈ l, ∀ f, cfg.plugins[i]? = some f → (f.kind = .attr → c.attrs f.name = none) ∧
      (f.kind ≠ .attr → c.sets f.datasetName = none)) :
    ∃ c', (l.map Sys.createField).foldlM (runSys cfg frame rank) (disk, st)
        = some (put disk st.timer.snapshotNum (some c'), st) ∧ c'.files = c.files ∧
      (∀ i ∈ l, ∀ f, cfg.plugins[i]? = some f → f.kind = .attr → c'.attrs f.name = some (frame.attr i)) ∧
      (∀ name, (∀ i ∈ l, ∀ f, cfg.plugins[i]? = some f → f.kind = .attr → f.name ≠ name) →
        c'.attrs name = c.attrs name) ∧
      (∀ i ∈ l, ∀ f, cfg.plugins[i]? = some f → f.kind ≠ .attr → c'.sets f.datasetName
        = some ⟨regions.map (fun r => (r.fileIndex, r.stop - r.start)), fun _ _ => none⟩) ∧
      (∀ name, (∀ i ∈ l, ∀ f, cfg.plugins[i]? = some f → f.kind ≠ .attr → f.datasetName ≠ name) →
        c'.sets name = c.sets name) := by
  induction l generalizing disk c with
  | nil =>
    refine ⟨c, ?_, rfl, by simp, fun _ _ => rfl, by simp, fun _ _ => rfl⟩
    rw [put_eq _ _ _ hc]
    rfl
  | cons i l ih =>
    obtain ⟨hil, nd'⟩ := List.nodup_cons.1 nd
    obtain ⟨f, hf⟩ := hl i (by simp)
    rw [List.map_cons, List.foldlM_cons]
    cases hk : f.kind with
    | attr =>
      have hnone := (fresh i (by simp) f hf).1 hk
      set c1 : Content V α := { c with attrs := put c.attrs f.name (some (frame.attr i)) } with hc1
      have e : runSys cfg frame rank (disk, st) (.createField i)
          = some (put disk st.timer.snapshotNum (some c1), st) := by
        simp [runSys, hfiles, hf, hc, hk, hnone, hc1]
      rw [e]
      obtain ⟨c', h1, h2, h3, h4, h5, h6⟩ := ih nd' (fun j hj => hl j (by simp [hj]))
        (put disk st.timer.snapshotNum (some c1)) c1 (put_self _ _ _) (by
          intro j hj g hg
          refine ⟨fun hgk => ?_, (fresh j (by simp [hj]) g hg).2⟩
          rw [hc1]
          dsimp only
          rw [put_ne]
          · exact (fresh j (by simp [hj]) g hg).1 hgk
          · intro hname
            exact hil (hdist.attributes i j f g hf hg hk hgk hname.symm ▸ hj))
      rw [put_put] at h1
      refine ⟨c', h1, h2, ?_, ?_, ?_, ?_⟩
      · intro j hj g hg hgk
        rcases List.mem_cons.1 hj with rfl | hj
        · rw [hf] at hg
          cases hg
          rw [h4, hc1]
          · exact put_self _ _ _
          · intro j' hj' g' hg' hgk' hname
            exact hil (hdist.attributes j j' f g' hf hg' hk hgk' hname.symm ▸ hj')
        · exact h3 j hj g hg hgk
      · intro name hname
        rw [h4 name (fun j hj => hname j (by simp [hj])), hc1]
        exact put_ne _ _ (hname i (by simp) f hf hk).symm
      · intro j hj g hg hgk
        rcases List.mem_cons.1 hj with rfl | hj
        · rw [hf] at hg
          cases hg
          exact absurd hk hgk
        · exact h5 j hj g hg hgk
      · intro name hname
        rw [h6 name (fun j hj => hname j (by simp [hj])), hc1]
    | dataset isStatic =>
      have hk' : f.kind ≠ .attr := by rw [hk]; simp
      have hnone := (fresh i (by simp) f hf).2 hk'
      set c1 : Content V α := { c with sets := put c.sets f.datasetName (some
        ⟨regions.map (fun r => (r.fileIndex, r.stop - r.start)), fun _ _ => none⟩) } with hc1
      have e : runSys cfg frame rank (disk, st) (.createField i)
          = some (put disk st.timer.snapshotNum (some c1), st) := by
        simp only [runSys, hfiles, hf, hc, hk, hnone, hstart, hc1]
        simp
      rw [e]
      obtain ⟨c', h1, h2, h3, h4, h5, h6⟩ := ih nd' (fun j hj => hl j (by simp [hj]))
        (put disk st.timer.snapshotNum (some c1)) c1 (put_self _ _ _) (by
          intro j hj g hg
          refine ⟨(fresh j (by simp [hj]) g hg).1, fun hgk => ?_⟩
          rw [hc1]
          dsimp only
          rw [put_ne]
          · exact (fresh j (by simp [hj]) g hg).2 hgk
          · intro hname
            exact hil (hdist.datasets i j f g hf hg hk' hgk hname.symm ▸ hj))
      rw [put_put] at h1
      refine ⟨c', h1, h2, ?_, ?_, ?_, ?_⟩
      · intro j hj g hg hgk
        rcases List.mem_cons.1 hj with rfl | hj
        · rw [hf] at hg
          cases hg
          exact absurd hgk hk'
        · exact h3 j hj g hg hgk
      · intro name hname
        rw [h4 name (fun j hj => hname j (by simp [hj])), hc1]
      · intro j hj g hg hgk
        rcases List.mem_cons.1 hj with rfl | hj
        · rw [hf] at hg
          cases hg
          rw [h6, hc1]
          · exact put_self _ _ _
          · intro j' hj' g' hg' hgk' hname
            exact hil (hdist.datasets j j' f g' hf hg' hk' hgk' hname.symm ▸ hj')
        · exact h5 j hj g hg hgk
      · intro name hname
        rw [h6 name (fun j hj => hname j (by simp [hj])), hc1]
        exact put_ne _ _ (hname i (by simp) f hf hk').symm

theorem write_fields (cfg : Config K) (frame : Frame K V α) (rank : ℕ) (hdist : DistinctNames cfg.plugins)
    (st : RankState K) (regions : List Region) (hfiles : st.files = some regions)
    (store : ℕ → Store α)
    (l : List ℕ) (nd : l.Nodup) (hl : ∀ i ∈ l, ∃ f, cfg.plugins[i]? = some f) (disk : Disk V α) (c : Content V α)
    (hc : disk st.timer.snapshotNum = some c)
    (ok : ∀ i ∈ l, ∀ f, cfg.plugins[i]? = some f → f.kind ≠ .attr → ∃ s rows, c.sets f.datasetName = some s ∧
      (frame.data i)[rank]? = some rows ∧ writeDataset s regions rows = some (store i)) :
    ∃ c', (l.map Sys.writeField).foldlM (runSys cfg frame rank) (disk, st)
        = some (put disk st.timer.snapshotNum (some c'), st) ∧ c'.files = c.files ∧ c'.attrs = c.attrs ∧
      (∀ i ∈ l, ∀ f, cfg.plugins[i]? = some f → f.kind ≠ .attr → c'.sets f.datasetName = some (store i)) ∧
      (∀ name, (∀ i ∈ l, ∀ f, cfg.plugins[i]? = some f → f.kind ≠ .attr → f.datasetName ≠ name) →
        c'.sets name = c.sets name) := by
  induction l generalizing disk c with
  | nil =>
    refine ⟨c, ?_, rfl, rfl, by simp, fun _ _ => rfl⟩
    rw [put_eq _ _ _ hc]
    rfl
  | cons i l ih =>
    obtain ⟨hil, nd'⟩ := List.nodup_cons.1 nd
    obtain ⟨f, hf⟩ := hl i (by simp)
    rw [List.map_cons, List.foldlM_cons]
    cases hk : f.kind with
    | attr =>
      have e : runSys cfg frame rank (disk, st) (.writeField i) = some (disk, st) := by
        obtain ⟨n, d, k⟩ := f
        dsimp only at hk
        subst hk
        simp [runSys, hf]
      rw [e]
      obtain ⟨c', h1, h2, h3, h4, h5⟩ := ih nd' (fun j hj => hl j (by simp [hj])) disk c hc
        (fun j hj => ok j (by simp [hj]))
      refine ⟨c', h1, h2, h3, ?_, ?_⟩
      · intro j hj g hg hgk
        rcases List.mem_cons.1 hj with rfl | hj
        · rw [hf] at hg
          cases hg
          exact absurd hk hgk
        · exact h4 j hj g hg hgk
      · intro name hname
        exact h5 name (fun j hj => hname j (by simp [hj]))
    | dataset isStatic =>
      have hk' : f.kind ≠ .attr := by rw [hk]; simp
      obtain ⟨s, rows, hs, hrows, hw⟩ := ok i (by simp) f hf hk'
      set c1 : Content V α := { c with sets := put c.sets f.datasetName (some (store i)) } with hc1
      have e : runSys cfg frame rank (disk, st) (.writeField i)
          = some (put disk st.timer.snapshotNum (some c1), st) := by
        obtain ⟨n, d, k⟩ := f
        dsimp only at hk hs hc1
        subst hk
        simp only [runSys, hfiles, hf, hc, hrows, hs, hw, hc1]
      rw [e]
      obtain ⟨c', h1, h2, h3, h4, h5⟩ := ih nd' (fun j hj => hl j (by simp [hj]))
        (put disk st.timer.snapshotNum (some c1)) c1 (put_self _ _ _) (by
          intro j hj g hg hgk
          obtain ⟨s', rows', hs', hrows', hw'⟩ := ok j (by simp [hj]) g hg hgk
          refine ⟨s', rows', ?_, hrows', hw'⟩
          rw [hc1]
          dsimp only
          rw [put_ne]
          · exact hs'
          · intro hname
            exact hil (hdist.datasets i j f g hf hg hk' hgk hname.symm ▸ hj))
      rw [put_put] at h1
      refine ⟨c', h1, h2, h3, ?_, ?_⟩
      · intro j hj g hg hgk
        rcases List.mem_cons.1 hj with rfl | hj
        · rw [hf] at hg
          cases hg
          rw [h5, hc1]
          · exact put_self _ _ _
          · intro j' hj' g' hg' hgk' hname
            exact hil (hdist.datasets j j' f g' hf hg' hk' hgk' hname.symm ▸ hj')
        · exact h4 j hj g hg hgk
      · intro name hname
        rw [h5 name (fun j hj => hname j (by simp [hj])), hc1]
        exact put_ne _ _ (hname i (by simp) f hf hk').symm

end Verif.OutputStages
