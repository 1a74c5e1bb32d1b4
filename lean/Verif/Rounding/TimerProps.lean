import Verif.Rounding.TimerLemmas

/-!
# C125: when snapshots are written, in `f64`
-/

namespace Verif.Rounding

open SnapshotTimer

/-! ### Lemmas -/

theorem dueF_mono {p : Params ℚ} (hp : Sensible p) {a b : ℕ} (h : a ≤ b) (hb : b ≤ 2 ^ 20 + 1) : dueF p a ≤ dueF p b := by
  have hd0 : 0 < p.timeBetweenSnapshots := lt_of_lt_of_le (by positivity) hp.between
  induction b, h using Nat.le_induction with
  | base => exact le_rfl
  | succ b hab ih =>
    have := dueF_apart hp.first hp.between hp.near (n := b) (by omega)
    refine (ih (by omega)).trans (le_trans (le_add_of_nonneg_right ?_) this)
    exact mul_nonneg hd0.le (by norm_num)

theorem count_le (p : Params ℚ) (l : List (Input ℚ)) (k : ℕ) : (written ((snapshotsF p l).take k)).length ≤ k :=
  (List.length_filterMap_le _ _).trans (List.length_take_le _ _)

theorem count_mono (p : Params ℚ) (l : List (Input ℚ)) {j k : ℕ} (h : j ≤ k) :
    (written ((snapshotsF p l).take j)).length ≤ (written ((snapshotsF p l).take k)).length := by
  refine List.Sublist.length_le ?_
  refine List.Sublist.filterMap _ ?_
  exact (List.take_sublist_take_left h)

/-- Among the snapshots those are written which are due. -/
theorem count_spec {p : Params ℚ} (hp : Sensible p) {h : ℚ} (hh : h ≤ p.timeBetweenSnapshots * (1 - 1 / 2 ^ 30)) {l : List (Input ℚ)}
    (hlen : l.length ≤ 2 ^ 20) (h0 : ∀ i, l[0]? = some i → i.time = 0)
    (hstep : ∀ j i i', l[j]? = some i → l[j + 1]? = some i' → i.time ≤ i'.time ∧ i'.time ≤ i.time + h) {k : ℕ} {i : Input ℚ}
    (hk : l[k]? = some i) (hns : ∀ j ≤ k, ∀ i, l[j]? = some i → i.stop = false) {m : ℕ} (hm : m ≤ 2 ^ 20) :
    m < (written ((snapshotsF p l).take (k + 1))).length ↔ dueF p m ≤ i.time := by
  have hd0 : 0 < p.timeBetweenSnapshots := lt_of_lt_of_le (by positivity) hp.between
  have key : ∀ m ≤ 2 ^ 20 + 1, (m < (written ((snapshotsF p l).take (k + 1))).length ↔ dueF p m ≤ i.time) := by
    induction k generalizing i with
    | zero =>
      intro m hm
      have ht := h0 i hk
      have hs := hns 0 le_rfl i hk
      have hg := snapshotsF_get p l hk
      rw [written_take_succ _ hg]
      have h1 := dueF_apart hp.first hp.between hp.near (n := 0) (by norm_num)
      have hpos : 0 < p.timeBetweenSnapshots * (1 - 1 / 2 ^ 30) := mul_pos hd0 (by norm_num)
      have hf : 0 ≤ dueF p 0 := hp.first
      simp only [List.take_zero, written, List.filterMap_nil, List.length_nil, hs, Bool.false_eq_true, false_or, zero_add, ht]
      rcases Nat.eq_zero_or_pos m with rfl | hm0
      · split_ifs with hif <;> simp_all
      · have := dueF_mono hp (a := 1) hm0 hm
        constructor
        · split_ifs <;> simp <;> omega
        · intro h
          simp only [zero_add] at h1
          exfalso
          linarith
    | succ k ih =>
      intro m hm
      obtain ⟨i', hi'⟩ : ∃ i', l[k]? = some i' := by
        rw [List.getElem?_eq_some_iff] at hk
        obtain ⟨hlt, -⟩ := hk
        exact ⟨l[k], List.getElem?_eq_getElem (by omega)⟩
      have hklt : k + 1 < l.length := by
        rw [List.getElem?_eq_some_iff] at hk
        exact hk.1
      have ih := ih hi' (fun j hj => hns j (by omega))
      obtain ⟨s1, s2⟩ := hstep k i' i hi' hk
      have hs := hns (k + 1) le_rfl i hk
      have hg := snapshotsF_get p l hk
      rw [written_take_succ _ hg]
      have hcle := count_le p l (k + 1)
      generalize hc : (written ((snapshotsF p l).take (k + 1))).length = c at *
      simp only [hs, Bool.false_eq_true, false_or]
      have hnot : i'.time < dueF p c := by
        by_contra hcon
        have := (ih c (by omega)).2 (not_lt.1 hcon)
        omega
      have hap := dueF_apart hp.first hp.between hp.near (n := c) (by omega)
      by_cases hif : dueF p c ≤ i.time
      · simp only [if_pos hif, Option.isSome_some, if_true]
        constructor
        · intro hlt
          exact (dueF_mono hp (by omega) (by omega)).trans hif
        · intro hle
          by_contra hge
          have := dueF_mono hp (a := c + 1) (b := m) (by omega) hm
          linarith
      · simp only [if_neg hif, Option.isSome_none, Bool.false_eq_true, if_false, add_zero]
        constructor
        · intro hlt
          exact ((ih m hm).1 hlt).trans s1
        · intro hle
          by_contra hge
          have := dueF_mono hp (a := c) (b := m) (by omega) hm
          linarith
  exact key m (by omega)

theorem frames_steps {dt : ℚ} (h64 : IsF64 dt) (hdt : (1 : ℚ) / 2 ^ 900 ≤ dt) {levels : ℕ} (hl0 : 0 < levels) (hl : levels ≤ 100)
    {final : Option ℚ} {n : ℕ} (hn : n ≤ 2 ^ 20) {l : List (Input ℚ)} (hrun : framesF dt levels final n = some l) :
    l.length ≤ 2 ^ 20 ∧ (∀ i, l[0]? = some i → i.time = 0) ∧
      (∀ j i i', l[j]? = some i → l[j + 1]? = some i' → i.time < i'.time ∧ i'.time ≤ i.time + dt * (1 + 1 / 2 ^ 31)) := by
  refine ⟨(framesF_spec hrun).1.trans hn, fun i hi => ?_, fun j i i' hi hi' => ?_⟩
  · have := framesF_nonstop hrun hi
    rw [clock_zero dt hl0, Option.some_inj] at this
    exact this.symm
  · refine clock_step_le h64 hdt hl0 hl ?_ (framesF_nonstop hrun hi) (framesF_nonstop hrun hi')
    have h1 := (framesF_spec hrun).1
    obtain ⟨h2, -⟩ := List.getElem?_eq_some_iff.1 hi'
    omega

theorem frames_before {dt : ℚ} {levels : ℕ} {final : Option ℚ} {n : ℕ} {l : List (Input ℚ)} (hrun : framesF dt levels final n = some l)
    {k : ℕ} {i : Input ℚ} (hk : l[k]? = some i) {j : ℕ} (hj : j < k) {i' : Input ℚ} (hi' : l[j]? = some i') : i'.stop = false := by
  obtain ⟨h2, -⟩ := List.getElem?_eq_some_iff.1 hk
  rcases hs : i'.stop with _ | _
  · rfl
  · have := ((framesF_spec hrun).2.2 j i' hi').2 hs
    omega

/-! ### Theorems -/

/-- **C125 (what is written).** In frame `k`, after `n` snapshots, a snapshot is written iff the simulation stops or the time has
reached the computed due time of snapshot `n`; it has number `n`, all datasets which are not static, and the static ones iff `n = 0`. -/
theorem snapshotF_step (p : Params ℚ) (inputs : List (Input ℚ)) {k : ℕ} {i : Input ℚ} (hk : inputs[k]? = some i) {n : ℕ}
    (hn : n = (written ((snapshotsF p inputs).take k)).length) :
    (i.stop = true ∨ dueF p n ≤ i.time → (snapshotsF p inputs)[k]? = some (some ⟨n, decide (n = 0), true⟩)) ∧
    (¬ (i.stop = true ∨ dueF p n ≤ i.time) → (snapshotsF p inputs)[k]? = some none) := by
  subst hn
  have := snapshotsF_get p inputs hk
  constructor
  · intro h; rw [this, if_pos h]
  · intro h; rw [this, if_neg h]

/-- **C125 (numbering).** The snapshots are numbered 0, 1, 2, ... -/
theorem snapshotF_numbers (p : Params ℚ) (inputs : List (Input ℚ)) :
    (written (snapshotsF p inputs)).map Snapshot.num = List.range (written (snapshotsF p inputs)).length := by
  rw [snapshotsF_eq, (timerRunF_spec p inputs 0).1, List.range_eq_range']

/-- **C125 (accuracy).** The computed due time of snapshot `n` is that of exact arithmetic up to a relative error of `n 2⁻⁵²`. -/
theorem due_accurate {p : Params ℚ} (hf : 0 ≤ p.timeFirstSnapshot.getD 0) (hd : (1 : ℚ) / 2 ^ 900 ≤ p.timeBetweenSnapshots) {n : ℕ}
    (hn : n ≤ 2 ^ 51) : |dueF p n - dueTime p n| ≤ n / 2 ^ 52 * dueTime p n := dueF_err hf hd hn

/-- **C125 (no snapshot is skipped or late).** If the time step is less than the interval, then in a run of at most a million frames
every frame but the last writes snapshot `m` exactly if it is the first one whose time has reached the computed due time of `m`. -/
theorem snapshot_frame {dt : ℚ} (h64 : IsF64 dt) (hdt : (1 : ℚ) / 2 ^ 900 ≤ dt) {levels : ℕ} (hl0 : 0 < levels) (hl : levels ≤ 100)
    {p : Params ℚ} (hp : Sensible p) (hlt : dt * (1 + 1 / 2 ^ 29) ≤ p.timeBetweenSnapshots) {final : Option ℚ} {n : ℕ}
    (hn : n ≤ 2 ^ 20) {l : List (Input ℚ)} (hrun : framesF dt levels final n = some l) {k : ℕ} {i : Input ℚ} (hk : l[k]? = some i)
    (hns : i.stop = false) {m : ℕ} (hm : m ≤ 2 ^ 20) :
    (snapshotsF p l)[k]? = some (some ⟨m, decide (m = 0), true⟩) ↔
      dueF p m ≤ i.time ∧ ∀ j < k, ∀ i', l[j]? = some i' → i'.time < dueF p m := by
  have hdt0 : 0 < dt := lt_of_lt_of_le (by positivity) hdt
  obtain ⟨f1, f2, f3⟩ := frames_steps h64 hdt hl0 hl hn hrun
  have hspec := fun {k : ℕ} {i : Input ℚ} (hk : l[k]? = some i) (hns : ∀ j ≤ k, ∀ i, l[j]? = some i → i.stop = false) {m : ℕ}
    (hm : m ≤ 2 ^ 20) => count_spec hp (h := dt * (1 + 1 / 2 ^ 31)) (by
      have : dt * (1 + 1 / 2 ^ 29) * (1 - 1 / 2 ^ 30) ≤ p.timeBetweenSnapshots * (1 - 1 / 2 ^ 30) :=
        mul_le_mul_of_nonneg_right hlt (by norm_num)
      refine le_trans ?_ this
      rw [mul_assoc]
      gcongr
      norm_num) f1 f2
    (fun j i i' hi hi' => ⟨(f3 j i i' hi hi').1.le, (f3 j i i' hi hi').2⟩) hk hns hm
  have hall : ∀ j ≤ k, ∀ i, l[j]? = some i → i.stop = false := by
    intro j hj i' hi'
    rcases hj.lt_or_eq with h | rfl
    · exact frames_before hrun hk h hi'
    · rw [hk, Option.some_inj] at hi'
      exact hi' ▸ hns
  have hg := snapshotsF_get p l hk
  have hsucc := written_take_succ _ hg
  have hklt := (List.getElem?_eq_some_iff.1 hk).1
  have hck := count_le p l k
  have hsk := fun {m : ℕ} (hm : m ≤ 2 ^ 20) => hspec hk hall hm
  rw [hg, Option.some_inj]
  rw [hsucc] at hsk
  simp only [hns, Bool.false_eq_true, false_or] at hsk ⊢
  have hbefore : ∀ j < k, ∀ i', l[j]? = some i' → (m < (written ((snapshotsF p l).take (j + 1))).length ↔ dueF p m ≤ i'.time) :=
    fun j hj i' hi' => hspec hi' (fun j' hj' => hall j' (by omega)) hm
  constructor
  · intro h
    split_ifs at h with hif
    simp only [Option.some.injEq, Snapshot.mk.injEq, and_true] at h
    obtain ⟨rfl, -⟩ := h
    refine ⟨hif, fun j hj i' hi' => ?_⟩
    have h1 := hbefore j hj i' hi'
    have h2 := count_mono p l (j := j + 1) (k := k) (by omega)
    by_contra hcon
    have := h1.2 (not_lt.1 hcon)
    omega
  · rintro ⟨h1, h2⟩
    have h3 := (hsk hm).2 h1
    have h4 : (written ((snapshotsF p l).take k)).length ≤ m := by
      rcases Nat.eq_zero_or_pos k with rfl | hk0
      · simp [written]
      · obtain ⟨i', hi'⟩ : ∃ i', l[k - 1]? = some i' := ⟨l[k - 1], List.getElem?_eq_getElem (by omega)⟩
        have h5 := hbefore (k - 1) (by omega) i' hi'
        rw [show k - 1 + 1 = k by omega] at h5
        by_contra hcon
        have h6 := h5.1 (by omega)
        have h7 := h2 (k - 1) (by omega) i' hi'
        linarith
    by_cases hif : dueF p (written ((snapshotsF p l).take k)).length ≤ i.time
    · simp only [if_pos hif, Option.isSome_some, if_true] at h3 ⊢
      have : (written ((snapshotsF p l).take k)).length = m := by omega
      rw [this]
    · simp only [if_neg hif, Option.isSome_none, Bool.false_eq_true, if_false] at h3
      omega

/-- **C125 (on time).** Snapshot `m` is written not before its due time of exact arithmetic and less than one time step after it, up to
rounding errors; the snapshot of the last frame may be early. -/
theorem snapshot_on_time {dt : ℚ} (h64 : IsF64 dt) (hdt : (1 : ℚ) / 2 ^ 900 ≤ dt) {levels : ℕ} (hl0 : 0 < levels) (hl : levels ≤ 100)
    {p : Params ℚ} (hp : Sensible p) (hlt : dt * (1 + 1 / 2 ^ 29) ≤ p.timeBetweenSnapshots) {final : Option ℚ} {n : ℕ}
    (hn : n ≤ 2 ^ 20) {l : List (Input ℚ)} (hrun : framesF dt levels final n = some l) {k : ℕ} {i : Input ℚ} (hk : l[k]? = some i)
    (hns : i.stop = false) {s : Snapshot} (hs : (snapshotsF p l)[k]? = some (some s)) :
    dueTime p s.num * (1 - s.num / 2 ^ 52) ≤ i.time ∧
      i.time < dueTime p s.num * (1 + s.num / 2 ^ 52) + dt * (1 + 1 / 2 ^ 31) := by
  have hdt0 : 0 < dt := lt_of_lt_of_le (by positivity) hdt
  have hklt := (List.getElem?_eq_some_iff.1 hk).1
  have hlen := (framesF_spec hrun).1
  have hck := count_le p l k
  obtain ⟨f1, f2, f3⟩ := frames_steps h64 hdt hl0 hl hn hrun
  obtain ⟨m, rfl, hm⟩ : ∃ m, s = ⟨m, decide (m = 0), true⟩ ∧ m ≤ 2 ^ 20 := by
    have hg := snapshotsF_get p l hk
    rw [hs, Option.some_inj] at hg
    split_ifs at hg
    exact ⟨_, Option.some_inj.1 hg, by omega⟩
  have h := (snapshot_frame h64 hdt hl0 hl hp hlt hn hrun hk hns hm).1 hs
  have herr := due_accurate hp.first hp.between (n := m) (by norm_num at hm ⊢; omega)
  obtain ⟨e1, e2⟩ := abs_le.1 herr
  have hX := dueTime_nonneg hp.first (lt_of_lt_of_le (by positivity) hp.between).le m
  dsimp only
  constructor
  · linarith [h.1]
  · rcases Nat.eq_zero_or_pos k with rfl | hk0
    · rw [f2 i hk]
      have : 0 ≤ dueTime p m * (1 + m / 2 ^ 52) := by positivity
      have h3 : 0 < dt * (1 + 1 / 2 ^ 31) := by positivity
      linarith
    · obtain ⟨i', hi'⟩ : ∃ i', l[k - 1]? = some i' := ⟨l[k - 1], List.getElem?_eq_getElem (by omega)⟩
      have h1 := h.2 (k - 1) (by omega) i' hi'
      have h2 := (f3 (k - 1) i' i hi' (by rw [show k - 1 + 1 = k by omega]; exact hk)).2
      linarith

/-- **C125 (all are written).** A snapshot whose due time of exact arithmetic is reached in a frame, up to rounding errors, is written in
this frame or one before. -/
theorem snapshot_written {dt : ℚ} (h64 : IsF64 dt) (hdt : (1 : ℚ) / 2 ^ 900 ≤ dt) {levels : ℕ} (hl0 : 0 < levels) (hl : levels ≤ 100)
    {p : Params ℚ} (hp : Sensible p) (hlt : dt * (1 + 1 / 2 ^ 29) ≤ p.timeBetweenSnapshots) {final : Option ℚ} {n : ℕ}
    (hn : n ≤ 2 ^ 20) {l : List (Input ℚ)} (hrun : framesF dt levels final n = some l) {k : ℕ} {i : Input ℚ} (hk : l[k]? = some i)
    (hns : i.stop = false) {m : ℕ} (hm : m ≤ 2 ^ 20) (hdue : dueTime p m * (1 + m / 2 ^ 52) ≤ i.time) :
    ∃ j ≤ k, (snapshotsF p l)[j]? = some (some ⟨m, decide (m = 0), true⟩) := by
  have herr := due_accurate hp.first hp.between (n := m) (by norm_num at hm ⊢; omega)
  obtain ⟨e1, e2⟩ := abs_le.1 herr
  have hd : dueF p m ≤ i.time := by linarith
  have hex : ∃ j, ∃ i' : Input ℚ, l[j]? = some i' ∧ dueF p m ≤ i'.time := ⟨k, i, hk, hd⟩
  classical
  obtain ⟨i', hi', hd'⟩ := Nat.find_spec hex
  have hle : Nat.find hex ≤ k := Nat.find_min' hex ⟨i, hk, hd⟩
  refine ⟨Nat.find hex, hle, (snapshot_frame h64 hdt hl0 hl hp hlt hn hrun hi' ?_ hm).2 ⟨hd', fun j hj i'' hi'' => ?_⟩⟩
  · rcases hle.lt_or_eq with h | h
    · exact frames_before hrun hk h hi'
    · rw [h, hk, Option.some_inj] at hi'
      exact hi' ▸ hns
  · by_contra hcon
    exact Nat.find_min hex hj ⟨i'', hi'', not_lt.1 hcon⟩

/-- **C125 (end).** A run to a final time within a million time steps has finitely many frames: frame `c` is the
first one whose time has reached the final time, frame `c + 1` is the last one (the time is advanced once more), and a snapshot is
written in it. -/
theorem run_ends {dt : ℚ} (h64 : IsF64 dt) (hdt : (1 : ℚ) / 2 ^ 900 ≤ dt) {levels : ℕ} (hl0 : 0 < levels) (hl : levels ≤ 100)
    {final : ℚ} (hf : 0 < final) (hf' : final ≤ (2 ^ 20 - 2) * dt) (p : Params ℚ) :
    ∃ c t, clockF dt levels c = some t ∧ final ≤ t ∧ (∀ c' < c, ∀ t', clockF dt levels c' = some t' → t' < final) ∧
      ∃ l, l.length = c + 2 ∧ (∀ m, framesF dt levels (some final) (c + 2 + m) = some l) ∧
        ∃ s, (snapshotsF p l)[c + 1]? = some (some s) := by
  obtain ⟨c, t, h1, h2, h3, -, -⟩ := clock_reaches h64 hdt hl0 hl hf hf'
  refine ⟨c, t, h1, h2, h3, ?_⟩
  have hstop : ∀ k i, frameF dt levels (some final) k = some i → (i.stop = true ↔ c < k) := by
    intro k i hi
    simp only [frameF, Option.bind_eq_bind, Option.bind_eq_some_iff, Option.some.injEq] at hi
    obtain ⟨a, ha, b, hb, rfl⟩ := hi
    simp only [decide_eq_true_eq]
    have hmono : ∀ d, c ≤ d → ∀ t', clockF dt levels d = some t' → t ≤ t' := by
      intro d hd
      induction d, hd using Nat.le_induction with
      | base =>
        intro t' ht'
        rw [h1, Option.some_inj] at ht'
        exact ht'.le
      | succ d hd ih =>
        intro t' ht'
        have hs := clock_some dt hl0 d
        refine (ih _ hs).trans ?_
        rw [clock_some dt hl0 (d + 1), cyclesF_succ, Option.some_inj] at ht'
        rw [← ht']
        have h64' : IsF64 (cyclesF dt d (⟨dt, levels, levels - 1, false⟩, 0)).2 := by
          rcases d with _ | d
          · exact fl_zero
          · rw [cyclesF_succ]
            exact isF64_fl _
        exact le_fl h64' (le_add_of_nonneg_right (maxTimestepF_le h64 (lt_of_lt_of_le (by positivity) hdt) _).1)
    constructor
    · intro hfb
      by_contra hge
      rcases Nat.eq_zero_or_pos c with rfl | hc0
      · have : k = 0 := by omega
        subst this
        rw [clock_zero dt hl0, Option.some_inj] at hb
        linarith
      · have := h3 (k - 1) (by omega) b hb
        linarith
    · intro hck
      exact h2.trans (hmono (k - 1) (by omega) b hb)
  have hlenn : ∀ n l, framesF dt levels (some final) n = some l → l.length = min n (c + 2) := by
    intro n l hl'
    obtain ⟨i1, i2, i3⟩ := framesF_spec hl'
    have hno : ∀ k i, l[k]? = some i → (i.stop = true ↔ c < k) := fun k i hk => hstop k i (i3 k i hk).1
    have hle : l.length ≤ c + 2 := by
      by_contra hgt
      have hk : l[c + 1]? = some l[c + 1] := List.getElem?_eq_getElem (by omega)
      have := (i3 _ _ hk).2 ((hno _ _ hk).2 (by omega))
      omega
    by_cases hlt : l.length < n
    · obtain ⟨i, hi, hs⟩ := i2 hlt
      obtain ⟨k, hk⟩ := List.getElem?_of_mem hi
      have h5 := (hno k i hk).1 hs
      have := (List.getElem?_eq_some_iff.1 hk).1
      omega
    · omega
  obtain ⟨l, hl'⟩ := framesF_ne_none (dt := dt) hl0 (some final) (c + 2)
  have hlen := hlenn _ _ hl'
  have hk : l[c + 1]? = some l[c + 1] := List.getElem?_eq_getElem (by omega)
  have hst : (l[c + 1]).stop = true := (hstop _ _ ((framesF_spec hl').2.2 _ _ hk).1).2 (by omega)
  refine ⟨l, by omega, fun m => ?_, ?_⟩
  · induction m with
    | zero => exact hl'
    | succ m ih =>
      rw [← Nat.add_assoc]
      simp only [framesF, ih, Option.bind_eq_bind, Option.bind_some]
      rw [if_pos (List.any_eq_true.2 ⟨_, List.mem_of_getElem? hk, hst⟩)]
  · rw [snapshotsF_get p l hk, if_pos (Or.inl hst)]
    exact ⟨_, rfl⟩

/-! ### Rounding delays snapshots -/

/-- **C125, disagreement with C05.** With time steps of 0.1 and a snapshot every 0.8 the time of frame eight is less than 0.8, and
snapshot 1 is written in the frame after it, at 0.9.  In exact arithmetic (with the same `f64` parameters) it is written in frame eight. -/
theorem late_snapshot :
    let dt := fl (1 / 10)
    let p : Params ℚ := ⟨none, fl (8 / 10)⟩
    (∃ l, framesF dt 1 none 10 = some l ∧ snapshotsF p l = [some ⟨0, true, true⟩, none, none, none, none, none, none, none, none, some ⟨1, false, true⟩]) ∧
    (∃ l, framesF dt 1 none 9 = some l ∧ ∃ i, l[8]? = some i ∧ i.time < 8 / 10) ∧
    simulate p ((List.range 10).map fun k => ⟨k * dt, false⟩) =
      [some ⟨0, true, true⟩, none, none, none, none, none, none, none, some ⟨1, false, true⟩, none] := by
  refine ⟨⟨_, (Option.some_get (by decide +kernel : (framesF (fl (1 / 10)) 1 none 10).isSome = true)).symm, by decide +kernel⟩,
    ⟨_, (Option.some_get (by decide +kernel : (framesF (fl (1 / 10)) 1 none 9).isSome = true)).symm,
      _, (List.getElem?_eq_getElem (by decide +kernel)), by decide +kernel⟩,
    by decide +kernel⟩

/-! ### Examples -/

/-- The parameters of the examples: the first snapshot after two intervals. -/
def exTimer : Params ℚ := ⟨some (fl (16 / 10)), fl (8 / 10)⟩

theorem exTimer_sensible : Sensible exTimer := by
  refine ⟨by decide +kernel, ?_, by decide +kernel⟩
  refine le_trans (one_div_le_one_div_of_le (by norm_num) (le_self_pow₀ (by norm_num) (by norm_num) : (2 : ℚ) ≤ 2 ^ 900)) ?_
  decide +kernel

/-- The hypotheses of the theorems hold: time steps of 0.3 with three levels. -/
theorem exTimer_run : IsF64 (fl (3 / 10)) ∧ fl (3 / 10) * (1 + 1 / 2 ^ 29) ≤ exTimer.timeBetweenSnapshots ∧
    ∃ l, framesF (fl (3 / 10)) 3 (some 3) 15 = some l ∧ l.map (·.stop) = List.replicate 14 false ++ [true] ∧
      snapshotsF exTimer l = [none, none, none, none, none, none, none, none, some ⟨0, true, true⟩, none, none, some ⟨1, false, true⟩,
        none, some ⟨2, false, true⟩, some ⟨3, false, true⟩] := by
  refine ⟨by decide +kernel, by decide +kernel, _,
    (Option.some_get (by decide +kernel : (framesF (fl (3 / 10)) 3 (some 3) 15).isSome = true)).symm, by decide +kernel, by decide +kernel⟩

end Verif.Rounding
