import Verif.Stages.TimerModel
import Mathlib.Algebra.Order.Group.Defs
import Mathlib.Algebra.Group.Basic
import Mathlib.Data.List.Nodup
import Mathlib.Data.List.Perm.Basic
import Mathlib.Data.Rat.Defs
import Mathlib.Tactic.Abel

/-!
# C113: the time of every stage is measured
-/

namespace Verif.StageTimers

variable {N T : Type} [DecidableEq N] [AddCommGroup T]

/-! ### Specification -/

/-- The scheduler runs every system of a timer stage once, in any order; a stage takes the time `dur` and does not
touch the timers and results under the names of stages (other names, as "chemistry", are free). -/
structure Frame.Ok (stages : List N) (labels : List (Label N)) (f : Frame N T) (dur : N → T) : Prop where
  order : ∀ l, (f.order l).Perm (systemsOf labels l)
  time : ∀ n ∈ stages, ∀ w, (f.body n w).now = w.now + dur n
  results : ∀ n ∈ stages, ∀ w, ∀ m ∈ stages, (f.body n w).perf.results m = w.perf.results m
  timers : ∀ n ∈ stages, ∀ w, ∀ m ∈ stages, (f.body n w).perf.timers m = w.perf.timers m

/-! ### The layout of the schedule -/

/-- timers and stages in turn -/
def layout : List ℕ → List N → ℕ → List (Label N)
  | t :: ts, s :: ss, last => .timer t :: .stage s :: layout ts ss last
  | _, _, last => [.timer last]

theorem layout_head (ts : List ℕ) (ss : List N) (last : ℕ) (hlen : ss.length ≤ ts.length) :
    ∃ h rest, layout ts ss last = .timer h :: rest ∧
      (h = last ∧ ss = [] ∧ rest = [] ∨ ∃ ts' s ss', ts = h :: ts' ∧ ss = s :: ss' ∧
        rest = .stage s :: layout ts' ss' last) := by
  cases ts with
  | nil =>
    cases ss with
    | nil => exact ⟨last, [], rfl, Or.inl ⟨rfl, rfl, rfl⟩⟩
    | cons s ss => simp at hlen
  | cons t ts =>
    cases ss with
    | nil => exact ⟨last, [], rfl, Or.inl ⟨rfl, rfl, rfl⟩⟩
    | cons s ss => exact ⟨t, _, rfl, Or.inr ⟨ts, s, ss, rfl, rfl, rfl⟩⟩

theorem addTimers_eq (stages : List N) (h : stages.length < 14) :
    addTimers stages = some (layout ((List.range 14).map (· + 1)) stages 14) := by
  unfold addTimers
  rw [if_pos (by simpa [allTimers] using h)]
  congr 1
  have hlast : (allTimers N).getLast?.toList = [.timer 14] := rfl
  rw [hlast]
  have key : ∀ (ts : List ℕ) (ss : List N), ((ts.map Label.timer).zip ss).flatMap
      (fun x : Label N × N => [x.1, Label.stage x.2]) ++ [Label.timer 14] = layout ts ss 14 := by
    intro ts
    induction ts with
    | nil => intro ss; cases ss <;> rfl
    | cons t ts ih =>
      intro ss
      cases ss with
      | nil => rfl
      | cons s ss =>
        simp only [List.map_cons, List.zip_cons_cons, List.flatMap_cons, layout, List.cons_append, List.nil_append]
        rw [← ih ss]
  rw [← key]
  rfl

theorem stage_not_timer (s : N) : (allTimers N).any (fun t => Label.stage s == t) = false := by
  simp [allTimers]

theorem timer_is_timer (t : ℕ) (h : 1 ≤ t ∧ t ≤ 14) : (allTimers N).any (fun x => Label.timer t == x) = true := by
  rw [List.any_eq_true]
  exact ⟨.timer t, by
    unfold allTimers
    rw [List.mem_map]
    exact ⟨t - 1, by rw [List.mem_range]; omega, by congr 1; omega⟩, by simp⟩

theorem stage_not_mem (s : N) : Label.stage s ∉ allTimers N := by
  simp [allTimers]

theorem timer_mem (t : ℕ) (h : 1 ≤ t ∧ t ≤ 14) : Label.timer t ∈ allTimers N := by
  have := timer_is_timer (N := N) t h
  simpa using this

theorem systems_layout (t : ℕ) (ts : List ℕ) (s : N) (ss : List N) (last : ℕ) (hlen : ss.length ≤ ts.length)
    (hts : ∀ x ∈ ts, 1 ≤ x ∧ x ≤ 14) (hlast : 1 ≤ last ∧ last ≤ 14) :
    ∃ h rest, layout ts ss last = .timer h :: rest ∧ timerSystems (layout (t :: ts) (s :: ss) last)
      = [(.timer t, .start s), (.timer h, .stop s)] ++ timerSystems (layout ts ss last) := by
  obtain ⟨h, rest, e, hor⟩ := layout_head ts ss last hlen
  refine ⟨h, rest, e, ?_⟩
  have hh : 1 ≤ h ∧ h ≤ 14 := by
    rcases hor with ⟨rfl, _, _⟩ | ⟨ts', _, _, rfl, _, _⟩
    · exact hlast
    · exact hts h (by simp)
  unfold timerSystems
  rw [layout, e]
  cases rest with
  | nil => simp [windows3, stage_not_mem]
  | cons x rest => simp [windows3, stage_not_mem, timer_mem h hh]

/-- the times in a result -/
def before : Option (Result T) → List T
  | some (.runTimes l) => l
  | _ => []

/-- what is known between two stages of a frame: `done` are the stages measured in this frame -/
structure Between (stages : List N) (done : List N) (dur : N → T) (w0 w : World N T) : Prop where
  result : ∀ n ∈ stages, (w.perf.results n) = if n ∈ done then
    some (.runTimes (before (w0.perf.results n) ++ [dur n]))
    else w0.perf.results n

/-- no stage name is used for a number -/
def NoNumbers (stages : List N) (w : World N T) : Prop :=
  ∀ n ∈ stages, w.perf.results n = none ∨ ∃ l, w.perf.results n = some (.runTimes l)

theorem set_self {B : Type} (f : N → B) (n : N) (b : B) : set f n b n = b := by simp [set]

theorem set_ne {B : Type} (f : N → B) {n m : N} (b : B) (h : m ≠ n) : set f n b m = f m := by simp [set, h]

/-- the systems of a timer stage, with at most one timer to stop and at most one to start -/
theorem timer_stage (stages done : List N) (dur : N → T) (w0 w : World N T) (hw : Between stages done dur w0 w)
    (hnum : NoNumbers stages w0) (order : List (Action N)) (prev : Option N) (next : Option N)
    (hne : ∀ a b, prev = some a → next = some b → a ≠ b)
    (horder : order.Perm ((prev.map Action.stop).toList ++ (next.map Action.start).toList))
    (hprev : ∀ a, prev = some a → a ∈ stages ∧ a ∉ done ∧ ∃ t, w.perf.timers a = some t ∧ w.now = t + dur a) :
    ∃ w', order.foldlM act w = some w' ∧ w'.now = w.now ∧ Between stages (prev.toList ++ done) dur w0 w' ∧
      ∀ b, next = some b → w'.perf.timers b = some w.now := by
  -- stopping
  have hstop : ∀ (v : World N T), v.now = w.now → Between stages done dur w0 v → ∀ a, prev = some a →
      v.perf.timers a = w.perf.timers a →
      ∃ v', act v (.stop a) = some v' ∧ v'.now = w.now ∧ Between stages (a :: done) dur w0 v' ∧
        ∀ b, b ≠ a → v'.perf.timers b = v.perf.timers b := by
    intro v hnow hv a ha hta
    obtain ⟨h1, h2, t, h3, h4⟩ := hprev a ha
    have hres : v.perf.results a = w0.perf.results a := by
      rw [hv.result a h1, if_neg h2]
    obtain ⟨l, hl1, hl2⟩ : ∃ l, (v.perf.results a).getD (.runTimes []) = .runTimes l ∧
        l = before (w0.perf.results a) := by
      rw [hres]
      rcases hnum a h1 with h | ⟨l, h⟩
      · exact ⟨[], by rw [h]; rfl, by rw [h]; rfl⟩
      · exact ⟨l, by rw [h]; rfl, by rw [h]; rfl⟩
    refine ⟨⟨v.now, ⟨set v.perf.results a (some (.runTimes (l ++ [v.now - t]))), set v.perf.timers a none⟩⟩, ?_, hnow,
      ⟨?_⟩, ?_⟩
    · simp [act, Performance.stop, hta, h3, hl1]
    · intro n hn
      dsimp only
      by_cases hna : n = a
      · subst hna
        rw [set_self, if_pos (by simp), hl2, hnow, h4]
        simp
      · rw [set_ne _ _ hna, hv.result n hn]
        simp [hna]
    · intro b hb
      exact set_ne _ _ hb
  have hstart : ∀ (v : World N T) (b : N), act v (.start b) = some { v with perf := v.perf.start v.now b } :=
    fun _ _ => rfl
  cases prev with
  | none =>
    cases next with
    | none =>
      have : order = [] := List.perm_nil.1 (by simpa using horder)
      subst this
      exact ⟨w, rfl, rfl, by simpa using hw, fun b hb => by cases hb⟩
    | some b =>
      have : order = [.start b] := List.perm_singleton.1 (by simpa using horder)
      subst this
      refine ⟨{ w with perf := w.perf.start w.now b }, rfl, rfl, ⟨hw.result⟩, ?_⟩
      intro b' hb'
      cases hb'
      exact set_self _ _ _
  | some a =>
    cases next with
    | none =>
      have : order = [.stop a] := List.perm_singleton.1 (by simpa using horder)
      subst this
      obtain ⟨v, e1, e2, e3, _⟩ := hstop w rfl hw a rfl rfl
      refine ⟨v, ?_, e2, e3, fun b hb => by cases hb⟩
      rw [List.foldlM_cons, e1]
      rfl
    | some b =>
      have hab := hne a b rfl rfl
      have h2 : order = [.stop a, .start b] ∨ order = [.start b, .stop a] := by
        have hp : order.Perm [.stop a, .start b] := by simpa using horder
        match order, hp.length_eq with
        | [x, y], _ =>
          have hx : x ∈ [Action.stop a, .start b] := hp.mem_iff.1 (by simp)
          have hy : y ∈ [Action.stop a, .start b] := hp.mem_iff.1 (by simp)
          have hn : [x, y].Nodup := hp.nodup_iff.2 (by simp)
          simp only [List.mem_cons, List.not_mem_nil, or_false] at hx hy
          rcases hx with rfl | rfl <;> rcases hy with rfl | rfl <;> simp at hn ⊢
      rcases h2 with rfl | rfl
      · obtain ⟨v, e1, e2, e3, _⟩ := hstop w rfl hw a rfl rfl
        refine ⟨{ v with perf := v.perf.start v.now b }, ?_, e2, ⟨by simpa [Performance.start] using e3.result⟩, ?_⟩
        · rw [List.foldlM_cons, e1]
          rfl
        · intro b' hb'
          cases hb'
          dsimp only [Performance.start]
          rw [set_self, e2]
      · obtain ⟨v, e1, e2, e3, e4⟩ := hstop { w with perf := w.perf.start w.now b } rfl
          ⟨by simpa [Performance.start] using hw.result⟩ a rfl (by
            dsimp only [Performance.start]
            exact set_ne _ _ hab)
        refine ⟨v, ?_, e2, e3, ?_⟩
        · rw [List.foldlM_cons, hstart]
          simp only [Option.bind_eq_bind, Option.bind_some, List.foldlM_cons, List.foldlM_nil, e1]
          rfl
        · intro b' hb'
          cases hb'
          rw [e4 b (Ne.symm hab)]
          dsimp only [Performance.start]
          exact set_self _ _ _

theorem systemsOf_fresh (ts : List ℕ) (ss : List N) (last x : ℕ) (hlen : ss.length ≤ ts.length)
    (hts : ∀ y ∈ ts, 1 ≤ y ∧ y ≤ 14) (hlast : 1 ≤ last ∧ last ≤ 14) (hx : x ∉ ts) (hxl : x ≠ last) :
    systemsOf (layout ts ss last) (.timer x) = [] := by
  induction ts generalizing ss with
  | nil => cases ss <;> simp [layout, systemsOf, timerSystems, windows3]
  | cons t ts ih =>
    cases ss with
    | nil => simp [layout, systemsOf, timerSystems, windows3]
    | cons s ss =>
      have hlen' : ss.length ≤ ts.length := by simpa using hlen
      obtain ⟨h, rest, e, e'⟩ := systems_layout t ts s ss last hlen' (fun y hy => hts y (by simp [hy])) hlast
      have hxh : h ≠ x := by
        obtain ⟨h', rest', f, hor⟩ := layout_head ts ss last hlen'
        rw [e] at f
        simp only [List.cons.injEq, Label.timer.injEq] at f
        obtain ⟨rfl, rfl⟩ := f
        rcases hor with ⟨rfl, _, _⟩ | ⟨ts', _, _, rfl, _, _⟩
        · exact Ne.symm hxl
        · rintro rfl
          simp at hx
      have := ih ss hlen' (fun y hy => hts y (by simp [hy])) (by
        intro h
        exact hx (by simp [h]))
      unfold systemsOf at this ⊢
      rw [e', List.filterMap_append, this]
      have hxt : t ≠ x := by
        rintro rfl
        simp at hx
      simp [hxh, hxt]

/-- a part of the frame, from a timer stage on -/
theorem run_layout (stages : List N) (labels : List (Label N)) (f : Frame N T) (dur : N → T)
    (hf : f.Ok stages labels dur) (w0 : World N T) (hnum : NoNumbers stages w0) (ts : List ℕ) (ss : List N) (last : ℕ)
    (hlen : ss.length ≤ ts.length) (hts : ∀ y ∈ ts, 1 ≤ y ∧ y ≤ 14) (hlast : 1 ≤ last ∧ last ≤ 14)
    (hnd : ts.Nodup) (hlt : last ∉ ts.take ss.length) (done : List N) (prev : Option N)
    (hss : ∀ s ∈ ss, s ∈ stages) (hndss : (prev.toList ++ done ++ ss).Nodup)
    (hsys : ∀ x, x ∈ ts.take ss.length ∨ x = last → systemsOf labels (.timer x)
      = (if (layout ts ss last).head? = some (.timer x) then (prev.map Action.stop).toList else []) ++
        systemsOf (layout ts ss last) (.timer x))
    (w : World N T) (hw : Between stages done dur w0 w)
    (hprev : ∀ a, prev = some a → a ∈ stages ∧ ∃ t, w.perf.timers a = some t ∧ w.now = t + dur a) :
    ∃ w', (layout ts ss last).foldlM (runStage f) w = some w' ∧
      Between stages (ss.reverse ++ prev.toList ++ done) dur w0 w' := by
  induction ss generalizing ts done prev w with
  | nil =>
    have e : layout ts ([] : List N) last = [.timer last] := by cases ts <;> rfl
    rw [e]
    have h1 := hsys last (Or.inr rfl)
    have h2 : systemsOf [Label.timer (N := N) last] (.timer last) = [] := rfl
    rw [e, h2] at h1
    simp only [List.head?_cons, if_true, List.append_nil] at h1
    obtain ⟨w', k1, _, k3, _⟩ := timer_stage stages done dur w0 w hw hnum (f.order (.timer last)) prev none
      (fun _ _ _ h => by cases h) (by simpa [h1] using hf.order (.timer last)) (by
        intro a ha
        obtain ⟨g1, g2⟩ := hprev a ha
        refine ⟨g1, ?_, g2⟩
        subst ha
        simp at hndss
        exact hndss.1)
    refine ⟨w', ?_, by simpa using k3⟩
    rw [List.foldlM_cons]
    simp only [runStage, k1]
    rfl
  | cons s ss ih =>
    cases ts with
    | nil => simp at hlen
    | cons t ts =>
      have hlen' : ss.length ≤ ts.length := by simpa using hlen
      have hts' : ∀ y ∈ ts, 1 ≤ y ∧ y ≤ 14 := fun y hy => hts y (by simp [hy])
      obtain ⟨h, rest, e, e'⟩ := systems_layout t ts s ss last hlen' hts' hlast
      obtain ⟨htts, hndts⟩ := List.nodup_cons.1 hnd
      have htl : last ≠ t := by
        rintro rfl
        simp at hlt
      -- the head of the rest
      have hht : h ≠ t := by
        obtain ⟨h', rest', g, hor⟩ := layout_head ts ss last hlen'
        rw [e] at g
        simp only [List.cons.injEq, Label.timer.injEq] at g
        obtain ⟨rfl, rfl⟩ := g
        rcases hor with ⟨rfl, _, _⟩ | ⟨ts', _, _, rfl, _, _⟩
        · exact htl
        · rintro rfl
          simp at htts
      have hsplit : ∀ x, systemsOf (layout (t :: ts) (s :: ss) last) (.timer x)
          = (if t = x then [.start s] else []) ++ ((if h = x then [.stop s] else []) ++
            systemsOf (layout ts ss last) (.timer x)) := by
        intro x
        unfold systemsOf
        rw [e', List.filterMap_append]
        by_cases h1 : t = x <;> by_cases h2 : h = x <;> simp [h1, h2]
      have hA : systemsOf labels (.timer t) = (prev.map Action.stop).toList ++ [.start s] := by
        rw [hsys t (Or.inl (by simp)), hsplit t, systemsOf_fresh ts ss last t hlen' hts' hlast htts (Ne.symm htl)]
        simp [layout, hht]
      obtain ⟨w1, k1, k2, k3, k4⟩ := timer_stage stages done dur w0 w hw hnum (f.order (.timer t)) prev (some s)
        (by
          intro a b ha hb
          cases hb
          subst ha
          rintro rfl
          simp at hndss)
        (by simpa [hA] using hf.order (.timer t)) (by
          intro a ha
          obtain ⟨g1, g2⟩ := hprev a ha
          refine ⟨g1, ?_, g2⟩
          subst ha
          simp at hndss
          tauto)
      have hs : s ∈ stages := hss s (by simp)
      have hlt' : last ∉ ts.take ss.length := by
        intro hm
        exact hlt (by simp [hm])
      obtain ⟨w', g1, g2⟩ := ih ts hlen' hts' hndts hlt' (prev.toList ++ done) (some s)
        (fun x hx => hss x (by simp [hx]))
        (by
          simp only [Option.toList_some, List.nodup_append, List.nodup_cons, List.mem_append, List.mem_cons,
            List.not_mem_nil, or_false] at hndss ⊢
          grind)
        (by
          intro x hx
          have hxm : x ∈ (t :: ts).take (s :: ss).length ∨ x = last := by
            rcases hx with hx | hx
            · exact Or.inl (by simp [hx])
            · exact Or.inr hx
          have hxt : t ≠ x := by
            rintro rfl
            rcases hx with hx | hx
            · exact htts (List.mem_of_mem_take hx)
            · exact htl hx.symm
          rw [hsys x hxm, hsplit x, e]
          by_cases h2 : h = x <;> simp [layout, hxt, h2])
        (f.body s w1)
        ⟨fun n hn => by rw [hf.results s hs w1 n hn]; exact k3.result n hn⟩
        (by
          intro a ha
          cases ha
          refine ⟨hs, w.now, ?_, ?_⟩
          · rw [hf.timers s hs w1 s hs]
            exact k4 s rfl
          · rw [hf.time s hs, k2])
      refine ⟨w', ?_, ⟨?_⟩⟩
      · rw [layout, List.foldlM_cons]
        simp only [runStage, k1, Option.bind_eq_bind, Option.bind_some, List.foldlM_cons]
        exact g1
      · intro n hn
        rw [g2.result n hn]
        congr 1
        simp only [Option.toList_some, List.mem_append, List.mem_reverse, List.mem_cons, List.not_mem_nil, or_false,
          eq_iff_iff]
        tauto

/-! ### Properties -/

/-- **C113.** With fewer than 14 stages of different names, and whatever the order of the systems in the timer stages, no
timer is stopped before it was started, and after any number of frames the results under the name of a stage are
exactly the times this stage has taken in the frames, one after the other. -/
theorem stage_times (stages : List N) (hlen : stages.length < 14) (hnd : stages.Nodup) :
    ∃ labels, addTimers stages = some labels ∧
      (labels.filter fun l => (allTimers N).all (fun t => l != t)) = stages.map Label.stage ∧
      ∀ (frames : List (Frame N T × (N → T))), (∀ f ∈ frames, f.1.Ok stages labels f.2) →
        ∀ w : World N T, (∀ n ∈ stages, w.perf.results n = none) →
        ∃ w', frames.foldlM (fun w f => runFrame labels w f.1) w = some w' ∧
          ∀ n ∈ stages, (frames = [] → w'.perf.results n = none) ∧
            (frames ≠ [] → w'.perf.results n = some (.runTimes (frames.map fun f => f.2 n))) := by
  refine ⟨_, addTimers_eq stages hlen, ?_, ?_⟩
  · have key : ∀ (ts : List ℕ) (ss : List N), ss.length ≤ ts.length → (∀ y ∈ ts, 1 ≤ y ∧ y ≤ 14) →
        ((layout ts ss 14).filter fun l => (allTimers N).all (fun t => l != t)) = ss.map Label.stage := by
      have hT : ∀ t, 1 ≤ t ∧ t ≤ 14 → (allTimers N).all (fun x => Label.timer t != x) = false := by
        intro t ht
        have := timer_is_timer (N := N) t ht
        rw [← Bool.not_eq_true, List.all_eq_true]
        rw [List.any_eq_true] at this
        obtain ⟨x, hx, hx'⟩ := this
        intro hall
        have := hall x hx
        simp at hx' this
        exact this hx'
      have hS : ∀ s : N, (allTimers N).all (fun x => Label.stage s != x) = true := by
        intro s
        simp [allTimers]
      intro ts
      induction ts with
      | nil =>
        intro ss h _
        have : ss = [] := by simpa using h
        subst this
        simp [layout, hT 14 (by omega)]
      | cons t ts ih =>
        intro ss h hy
        cases ss with
        | nil => simp [layout, hT 14 (by omega)]
        | cons s ss =>
          rw [layout, List.filter_cons_of_neg (by simp [hT t (hy t (by simp))]), List.filter_cons_of_pos (p := fun l => (allTimers N).all (fun t => l != t)) (hS s),
            ih ss (by simpa using h) (fun y hy' => hy y (by simp [hy']))]
          rfl
    exact key _ _ (by simp; omega) (by
      intro y hy
      rw [List.mem_map] at hy
      obtain ⟨x, hx, rfl⟩ := hy
      rw [List.mem_range] at hx
      omega)
  · -- all frames, from any results so far
    have key : ∀ (frames : List (Frame N T × (N → T))),
        (∀ f ∈ frames, f.1.Ok stages (layout ((List.range 14).map (· + 1)) stages 14) f.2) →
        ∀ (w : World N T), NoNumbers stages w →
        ∃ w', frames.foldlM (fun w f => runFrame (layout ((List.range 14).map (· + 1)) stages 14) w f.1) w = some w' ∧
          ∀ n ∈ stages, w'.perf.results n = if frames = [] then w.perf.results n else
            some (.runTimes (before (w.perf.results n) ++
              frames.map fun f => f.2 n)) := by
      intro frames
      induction frames with
      | nil =>
        intro _ w _
        exact ⟨w, rfl, fun n hn => by simp⟩
      | cons f frames ih =>
        intro hok w hnum
        obtain ⟨w1, e1, e2⟩ := run_layout stages _ f.1 f.2 (hok f (by simp)) w hnum ((List.range 14).map (· + 1)) stages
          14 (by simp; omega) (by
            intro y hy
            rw [List.mem_map] at hy
            obtain ⟨x, hx, rfl⟩ := hy
            rw [List.mem_range] at hx
            omega) (by omega) (by decide) (by
            intro hm
            rw [List.mem_take_iff_getElem] at hm
            obtain ⟨i, hi, he⟩ := hm
            rw [List.getElem_map, List.getElem_range] at he
            omega) [] none (fun s hs => hs) (by simpa using hnd) (by
            intro x _
            simp) w ⟨fun n hn => by simp⟩ (fun a ha => by cases ha)
        have hres : ∀ n ∈ stages, w1.perf.results n
            = some (.runTimes (before (w.perf.results n) ++ [f.2 n])) := by
          intro n hn
          rw [e2.result n hn, if_pos (by simpa using hn)]
        obtain ⟨w2, g1, g2⟩ := ih (fun f' hf' => hok f' (by simp [hf'])) w1
          (fun n hn => Or.inr ⟨_, hres n hn⟩)
        refine ⟨w2, ?_, ?_⟩
        · rw [List.foldlM_cons]
          unfold runFrame at g1 ⊢
          rw [e1]
          exact g1
        · intro n hn
          rw [g2 n hn, hres n hn]
          by_cases h : frames = []
          · subst h
            simp
          · simp [h, before]
    intro frames hok w hw
    obtain ⟨w', e1, e2⟩ := key frames hok w (fun n hn => Or.inl (hw n hn))
    refine ⟨w', e1, fun n hn => ⟨?_, ?_⟩⟩
    · intro h
      rw [e2 n hn, if_pos h, hw n hn]
    · intro h
      rw [e2 n hn, if_neg h, hw n hn]
      rfl

/-- With 14 stages the program stops at startup. -/
theorem too_many_stages (stages : List N) (hlen : 14 ≤ stages.length) : addTimers stages = none := by
  unfold addTimers
  rw [if_neg (by simpa [allTimers] using hlen)]

/-! ### The hypotheses can be met -/

/-- two stages of the program -/
def exampleStages : List String := ["sweep", "output"]

/-- two stages which take 3 and 4 seconds; the systems of the timer stages run in reverse order -/
def exampleFrame : Frame String ℚ where
  order l := match l with
    | .timer 1 => [.start "sweep"]
    | .timer 2 => [.start "output", .stop "sweep"]
    | .timer 14 => [.stop "output"]
    | _ => []
  body n w := { w with now := w.now + if n = "sweep" then 3 else 4 }

/-- The schedule of the example. -/
def exampleLabels : List (Label String) :=
  [.timer 1, .stage "sweep", .timer 2, .stage "output", .timer 14]

example : addTimers exampleStages = some exampleLabels := by decide +kernel

example : exampleFrame.Ok exampleStages exampleLabels (fun n => if n = "sweep" then 3 else 4) where
  order := by
    have hs : timerSystems exampleLabels = [(.timer 1, .start "sweep"), (.timer 2, .stop "sweep"),
      (.timer 2, .start "output"), (.timer 14, .stop "output")] := by decide +kernel
    intro l
    unfold systemsOf
    rw [hs]
    by_cases h1 : l = .timer 1
    · subst h1; decide +kernel
    by_cases h2 : l = .timer 2
    · subst h2; decide +kernel
    by_cases h3 : l = .timer 14
    · subst h3; decide +kernel
    have e : exampleFrame.order l = [] := by
      unfold exampleFrame
      dsimp only
      split <;> simp_all
    rw [e]
    simp [Ne.symm h1, Ne.symm h2, Ne.symm h3]
  time _ _ _ := rfl
  results _ _ _ _ _ := rfl
  timers _ _ _ _ _ := rfl

end Verif.StageTimers
