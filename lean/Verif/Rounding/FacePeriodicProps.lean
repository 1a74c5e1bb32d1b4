import Verif.Rounding.FaceSweepProps
import Verif.Rounding.SearchLemmas

/-!
# C117: the two sides of a periodic face with `f64` rounding
-/

namespace Verif.Rounding

open Verif.Predicates Verif.Sweep

/-- The sum of two points is computed without rounding. -/
def ExactImage (p t : P3 ℚ) : Prop := IsF64 (p.x + t.x) ∧ IsF64 (p.y + t.y) ∧ IsF64 (p.z + t.z)

instance (p t : P3 ℚ) : Decidable (ExactImage p t) := inferInstanceAs (Decidable (_ ∧ _ ∧ _))

/-- **C117.** The periodic image with which a normal is computed: every coordinate is moved along its own axis with one rounding,
and the image is exact if the sums are numbers in `f64`. -/
theorem periodic_image (p t : P3 ℚ) :
    (|(imageF p t).x - (p.x + t.x)| ≤ |p.x + t.x| / 2 ^ 53 + 1 / 2 ^ 1074 ∧
      |(imageF p t).y - (p.y + t.y)| ≤ |p.y + t.y| / 2 ^ 53 + 1 / 2 ^ 1074 ∧
      |(imageF p t).z - (p.z + t.z)| ≤ |p.z + t.z| / 2 ^ 53 + 1 / 2 ^ 1074) ∧
    (ExactImage p t → imageF p t = ⟨p.x + t.x, p.y + t.y, p.z + t.z⟩) := by
  refine ⟨⟨fl_abs_err _, fl_abs_err _, fl_abs_err _⟩, ?_⟩
  rintro ⟨h1, h2, h3⟩
  unfold imageF fadd
  rw [h1, h2, h3]

/-- **C117.** The two sides of a periodic face agree if the two periodic images involved are computed exactly: the first cell sees the
image of `p2` moved by `t`, the second one the image of `p1` moved by `-t`. -/
theorem periodic_sides_agree {p1 p2 t n n' : P3 ℚ} (h2 : ExactImage p2 t) (h1 : ExactImage p1 (negP t))
    (h : IsNormal p1 (imageF p2 t) n) (h' : IsNormal p2 (imageF p1 (negP t)) n') (d : P3 ℚ) :
    n' = negP n ∧ (downwindF n d ↔ upwindF n' d) ∧ (upwindF n d ↔ downwindF n' d) := by
  have e2 : subF (imageF p2 t) p1 = negP (subF (imageF p1 (negP t)) p2) := by
    obtain ⟨a, b, c⟩ := h2
    obtain ⟨a', b', c'⟩ := h1
    unfold IsF64 at a b c a' b' c'
    unfold subF imageF negP fsub fadd
    simp only [negP] at a' b' c'
    simp only [a, b, c, a', b', c', ← fl_neg]
    congr 2 <;> ring
  obtain ⟨len, hl, hs, rfl⟩ := h
  obtain ⟨len', hl', hs', rfl⟩ := h'
  rw [e2, dotF_neg_neg] at hs
  have el := hs'.unique hs
  have e : normalizeWith (subF (imageF p1 (negP t)) p2) len' = negP (normalizeWith (subF (imageF p2 t) p1) len) := by
    unfold normalizeWith
    rw [e2, scaleF_neg, el]
    unfold negP
    simp
  rw [e]
  refine ⟨rfl, ?_, ?_⟩ <;> unfold downwindF upwindF <;> rw [dotF_neg]
  · rw [neg_lt_zero]
  · rw [neg_pos]

/-- The translation across the boundary of a box with side length one. -/
def acrossX : P3 ℚ := ⟨1, 0, 0⟩

/-- Two points in the unit cube. -/
def bothDownA : P3 ℚ := ⟨4777450114229157 / 2 ^ 55, 451 / 1024, 1183834668315849 / 2 ^ 55⟩
@[inherit_doc bothDownA] def bothDownB : P3 ℚ := ⟨1691 / 2048, 309 / 512, 756535947361227 / 2 ^ 52⟩
@[inherit_doc bothDownA] def bothUpA : P3 ℚ := ⟨3292282174175001 / 2 ^ 54, 697 / 1024, 5326702473679623 / 2 ^ 53⟩
@[inherit_doc bothDownA] def bothUpB : P3 ℚ := ⟨4093 / 4096, 441 / 512, 1303377494995427 / 2 ^ 51⟩

/-- **C117, disagreement.** In a periodic box the two sides of a face can both find it downwind. -/
theorem both_downwind : ∃ n n', IsNormal bothDownA (imageF bothDownB (negP acrossX)) n ∧
    IsNormal bothDownB (imageF bothDownA acrossX) n' ∧ downwindF n direction7 ∧ downwindF n' direction7 := by
  refine ⟨_, _, isNormal_of (209924083565073 / 2 ^ 49) (532220781067251557774314320728372509137784036 / 2 ^ 150)
    (532220781067251557774314320728372509137784037 / 2 ^ 150) (by decide +kernel),
    isNormal_of (6717570674082337 / 2 ^ 54) (532220781067251664006742824424842416386724311 / 2 ^ 150)
    (532220781067251664006742824424842416386724312 / 2 ^ 150) (by decide +kernel), ?_, ?_⟩ <;> unfold downwindF <;> decide +kernel

/-- The normals of the face between `bothUpA` and `bothUpB`. -/
def upNormalA : P3 ℚ := normalizeWith (subF (imageF bothUpB (negP acrossX)) bothUpA) (4644302776966683 / 2 ^ 54)
@[inherit_doc upNormalA] def upNormalB : P3 ℚ := normalizeWith (subF (imageF bothUpA acrossX) bothUpB) (2322151388483341 / 2 ^ 53)

/-- **C117, disagreement.** In a periodic box the two sides of a face can both find it upwind. -/
theorem both_upwind : IsNormal bothUpA (imageF bothUpB (negP acrossX)) upNormalA ∧
    IsNormal bothUpB (imageF bothUpA acrossX) upNormalB ∧ upwindF upNormalA direction7 ∧ upwindF upNormalB direction7 := by
  refine ⟨isNormal_of (4644302776966683 / 2 ^ 54) (367959575178965533274970272578972358454881077 / 2 ^ 150)
    (367959575178965533274970272578972358454881078 / 2 ^ 150) (by decide +kernel),
    isNormal_of (2322151388483341 / 2 ^ 53) (367959575178965456447093126822919615922008041 / 2 ^ 150)
    (367959575178965456447093126822919615922008042 / 2 ^ 150) (by decide +kernel), ?_, ?_⟩ <;> unfold upwindF <;> decide +kernel

/-- Two cells on two ranks that touch through the periodic boundary; as in `cycleGrid` a face carries the computed product. -/
def upGrid : Sweep.Grid ℚ ℚ where
  numRanks := 2
  numDirs := 1
  cells := {⟨0, 0⟩, ⟨1, 0⟩}
  nbrs := fun id =>
    if id = ⟨0, 0⟩ then [(⟨1, ⟨dotF upNormalA direction7, 0, 0⟩⟩, .remotePeriodic ⟨1, 0⟩)]
    else if id = ⟨1, 0⟩ then [(⟨1, ⟨dotF upNormalB direction7, 0, 0⟩⟩, .remotePeriodic ⟨0, 0⟩)]
    else []
  dir := fun _ => ⟨1, 0, 0⟩
  level := fun _ => 0
  haloLevel := fun _ _ => 0
  current := 0
  absorb := fun _ x => x
  source := fun _ => 1
  makePositive := fun x => max x 0
  batch := 10

/-- No face of the grid is downwind. -/
theorem upGrid_none {id : Id} {e : Sweep.Face ℚ × Neighbour} (he : e ∈ upGrid.nbrs id) (d : ℕ) : ¬ downwind e.1 (upGrid.dir d) := by
  have ha := both_upwind.2.2.1
  have hb := both_upwind.2.2.2
  unfold upwindF at ha hb
  unfold upGrid at he
  dsimp only at he
  unfold downwind V3.dot
  split_ifs at he
  · rw [List.mem_singleton] at he
    subst he
    simp [upGrid]
    exact ha.le
  · rw [List.mem_singleton] at he
    subst he
    simp [upGrid]
    exact hb.le
  · simp at he

theorem upGrid_solveTask {s s' : Sweep.State ℚ} {t : Task} (h : solveTask upGrid s t = some s') :
    s'.toSend = s.toSend ∧ s'.sendBuf = s.sendBuf ∧ s'.chan = s.chan ∧ s'.recvCount = s.recvCount ∧ s'.pc = s.pc := by
  unfold solveTask at h
  dsimp only at h
  split at h
  · simp at h
  · have key : ∀ (l : List (Sweep.Face ℚ × Neighbour)) (delta : ℚ) (s : Sweep.State ℚ), (∀ e ∈ l, e ∈ upGrid.nbrs t.id) →
        l.foldlM (solveEntry upGrid t delta) s = some s := by
      intro l delta
      induction l with
      | nil => intro s _; rfl
      | cons e l ih =>
        intro s hl
        rw [List.foldlM_cons]
        have : solveEntry upGrid t delta s e = some s := by
          unfold solveEntry
          rw [if_neg (upGrid_none (hl e (by simp)) _)]
        rw [this]
        exact ih s fun e he => hl e (by simp [he])
    rw [key _ _ _ fun e he => he] at h
    injection h with h
    subst h
    exact ⟨rfl, rfl, rfl, rfl, rfl⟩

/-- Nothing is ever sent, and both ranks wait for a message. -/
structure Waiting (s : Sweep.State ℚ) : Prop where
  toSend : s.toSend = fun _ _ => []
  chan : s.chan = fun _ _ => []
  recv : s.recvCount 0 1 = 1 ∧ s.recvCount 1 0 = 1
  pc : s.pc 0 ≠ .done ∧ s.pc 1 ≠ .done

theorem Waiting.loopCond {s : Sweep.State ℚ} (h : Waiting s) {r : ℕ} (hr : r < 2) : Sweep.loopCond upGrid s r := by
  refine Or.inr (Or.inr ?_)
  have e0 : others upGrid.numRanks 0 = [1] := by decide
  have e1 : others upGrid.numRanks 1 = [0] := by decide
  have : r = 0 ∨ r = 1 := by omega
  rcases this with rfl | rfl
  · rw [e0]; simp [h.recv.1]
  · rw [e1]; simp [h.recv.2]

theorem Waiting.setPc {s : Sweep.State ℚ} (h : Waiting s) {r : ℕ} {pc : PC} (hp : pc ≠ .done) : Waiting (setPc s r pc) := by
  refine ⟨h.toSend, h.chan, h.recv, ?_, ?_⟩ <;> unfold Sweep.setPc upd <;> dsimp only <;> split_ifs
  · exact hp
  · exact h.pc.1
  · exact hp
  · exact h.pc.2

theorem Waiting.step {s s' : Sweep.State ℚ} {r : ℕ} {a : Act} (h : Waiting s) (hs : Step upGrid r a s s') : Waiting s' := by
  cases hs with
  | exit _ _ hr hp hc => exact absurd (h.loopCond hr) hc
  | enterRecv => exact h.setPc (by simp)
  | enterWork => exact h.setPc (by simp)
  | skip => exact h.setPc (by simp)
  | probe => exact h.setPc (by simp)
  | take _ s1 _ q qs msg rest hr hp hc hm =>
    rw [h.chan] at hm
    simp at hm
  | recvDone => exact h.setPc (by simp)
  | pop _ s1 _ k t hr hp ht hsolve =>
    obtain ⟨e1, e2, e3, e4, e5⟩ := upGrid_solveTask hsolve
    refine Waiting.setPc ⟨e1.trans h.toSend, e3.trans h.chan, ?_, ?_⟩ (by split_ifs <;> simp)
    · rw [e4]; exact h.recv
    · rw [e5]; exact h.pc
  | workDone => exact h.setPc (by simp)
  | send _ _ completed hr hp =>
    have h' : Waiting (trySendAll upGrid.numRanks r completed s) := by
      refine ⟨?_, ?_, h.recv, h.pc⟩
      · funext a b
        unfold trySendAll postSends updatePending
        simp [h.toSend]
      · funext a b
        unfold trySendAll postSends updatePending posts
        simp [h.toSend, h.chan]
    exact h'.setPc (by simp)

/-- **C117, disagreement.** A sweep over two cells on two ranks that both find their common periodic face upwind never ends: each rank
waits for a message that the other one never sends. -/
theorem periodic_rounding_hangs (miss : Id → ℕ → ℕ) (inc out per : Id → ℕ → ℚ) {acts : List (ℕ × Act)} {s : Sweep.State ℚ}
    (h : Run upGrid (initState upGrid miss inc out per) acts s) :
    s.chan = (fun _ _ => []) ∧ s.pc 0 ≠ .done ∧ s.pc 1 ≠ .done := by
  have h0 : Waiting (initState upGrid miss inc out per) := by
    refine ⟨rfl, rfl, ?_, by simp [initState], by simp [initState]⟩
    unfold initState
    dsimp only
    decide +kernel
  have : Waiting s := by
    induction h with
    | nil => exact h0
    | snoc acts s s' r a _ hs ih => exact ih.step hs
  exact ⟨this.chan, this.pc⟩

/-! ### The hypotheses are met -/

/-- Points on a coarse grid have exact images and agree. -/
example : ∃ n n', ExactImage ⟨1 / 4, 1 / 2, 0⟩ acrossX ∧ ExactImage ⟨7 / 8, 1 / 2, 0⟩ (negP acrossX) ∧
    IsNormal ⟨7 / 8, 1 / 2, 0⟩ (imageF ⟨1 / 4, 1 / 2, 0⟩ acrossX) n ∧
    IsNormal ⟨1 / 4, 1 / 2, 0⟩ (imageF ⟨7 / 8, 1 / 2, 0⟩ (negP acrossX)) n' ∧ downwindF n direction7 := by
  refine ⟨_, _, by decide +kernel, by decide +kernel, isNormal_of (3 / 8) (3 / 8) (3 / 8) (by decide +kernel),
    isNormal_of (3 / 8) (3 / 8) (3 / 8) (by decide +kernel), ?_⟩
  unfold downwindF
  decide +kernel

/-- The images of the points above are not exact. -/
example : ¬ ExactImage bothUpA acrossX := by decide +kernel

/-- The sweep starts. -/
example : Run upGrid (initState upGrid (fun _ _ => 0) (fun _ _ => 0) (fun _ _ => 0) (fun _ _ => 0)) []
    (initState upGrid (fun _ _ => 0) (fun _ _ => 0) (fun _ _ => 0) (fun _ _ => 0)) := .nil

end Verif.Rounding
