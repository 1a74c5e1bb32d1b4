import Verif.IO.OutputDirsModel
import Verif.IO.FileDistributionRoundTrip

/-!
# The files of a snapshot: lemmas
-/

namespace Verif.OutputDirs
open Verif.FileDist

theorem indices_eq (p : Params) (h : 0 < p.numFiles) :
    p.indices = (createdFiles (outputEntriesPerFile p.numParticles p.numFiles)).map (·.1) := by
  have h := createStore_eq (α := Unit) p.numParticles p.numFiles h
  unfold createStore at h
  unfold Params.indices
  cases hr : getRankOutputAssignmentForRank [p.numParticles] p.numFiles 0 with
  | none => simp [hr] at h
  | some regions =>
    simp only [hr] at h
    split at h
    · simp only [Option.some.injEq, Store.mk.injEq] at h
      rw [← h.1]
      simp
    · simp at h

/-- a file is created if it gets a particle -/
theorem mem_indices (p : Params) (h : 0 < p.numFiles) (i : ℕ) :
    i ∈ p.indices ↔ ∃ s, (outputEntriesPerFile p.numParticles p.numFiles)[i]? = some s ∧ 0 < s := by
  rw [indices_eq p h]
  unfold createdFiles
  simp only [List.map_map, List.mem_map, List.mem_filter, decide_eq_true_eq, Function.comp_apply, Prod.exists]
  constructor
  · rintro ⟨s, j, ⟨h1, h2⟩, rfl⟩
    exact ⟨s, (List.mem_zipIdx_iff_getElem?.1 h1), h2⟩
  · rintro ⟨s, h1, h2⟩
    exact ⟨s, i, ⟨List.mem_zipIdx_iff_getElem?.2 h1, h2⟩, rfl⟩

theorem indices_lt (p : Params) (h : 0 < p.numFiles) (i : ℕ) (hi : i ∈ p.indices) : i < p.numFiles := by
  obtain ⟨s, hs, _⟩ := (mem_indices p h i).1 hi
  have := (List.getElem?_eq_some_iff.1 hs).1
  unfold outputEntriesPerFile at this
  simp at this
  omega

theorem indices_sorted (p : Params) (h : 0 < p.numFiles) : p.indices.Pairwise (· < ·) := by
  rw [indices_eq p h]
  unfold createdFiles
  rw [List.map_map]
  have : (List.map Prod.snd ((outputEntriesPerFile p.numParticles p.numFiles).zipIdx.filter
      (fun f => decide (f.1 > 0)))).Pairwise (· < ·) := by
    refine List.Pairwise.sublist (List.Sublist.map _ List.filter_sublist) ?_
    rw [List.zipIdx_map_snd]
    exact List.pairwise_lt_range'
  exact this

/-- some file is created if there are particles -/
theorem indices_ne_nil (p : Params) (h : 0 < p.numFiles) (hp : 0 < p.numParticles) : p.indices ≠ [] := by
  intro hnil
  have hsum := sum_outputEntriesPerFile p.numParticles p.numFiles
  have : ∀ s ∈ outputEntriesPerFile p.numParticles p.numFiles, s = 0 := by
    intro s hs
    by_contra hne
    obtain ⟨i, hi⟩ := List.getElem?_of_mem hs
    have := (mem_indices p h i).2 ⟨s, hi, by omega⟩
    rw [hnil] at this
    cases this
  have := List.sum_eq_zero this
  omega

end Verif.OutputDirs
