import Verif.Spec.Benchmark
import Mathlib.Data.List.Induction
import Mathlib.Tactic.Ring
import Mathlib.Tactic.LinearCombination
import Mathlib.Tactic.FieldSimp
import Mathlib.Algebra.Order.Ring.Basic
import Mathlib.Tactic.Positivity
/-
Helper lemmas about benchmarks.
-/
namespace Verif.Benchmark

open Spec

section events

variable {N K : Type}

theorem completed_append (a b : List (Event N K)) : completed (a ++ b) = completed a + completed b := by
  induction a with
  | nil => simp [completed]
  | cons e a ih => cases e <;> simp [completed, ih] <;> omega

theorem inRun_append (c : Bool) (a b : List (Event N K)) : inRun c (a ++ b) = inRun (inRun c a) b := by
  induction a generalizing c with
  | nil => simp [inRun]
  | cons e a ih => cases e <;> simp [inRun, ih]

variable [DecidableEq N]

theorem starts_append (name : Option N) (k : Nat) (a b : List (Event N K)) :
    starts name k (a ++ b) = starts name k a ++ starts name (k + completed a) b := by
  induction a generalizing k with
  | nil => simp [starts, completed]
  | cons e a ih =>
    cases e <;> simp only [List.cons_append, starts, completed, ih]
    · split <;> simp
    · congr 2; omega
    · split <;> simp

theorem stops_append (name : Option N) (k : Nat) (a b : List (Event N K)) :
    stops name k (a ++ b) = stops name k a ++ stops name (k + completed a) b := by
  induction a generalizing k with
  | nil => simp [stops, completed]
  | cons e a ih =>
    cases e <;> simp only [List.cons_append, stops, completed, ih]
    · split
      · rw [List.cons_append]; congr 3; omega
      · congr 2; omega
    · split <;> simp

theorem lastIn_append [Zero K] (k : Nat) (a : List (Nat × K)) (j : Nat) (t : K) :
    lastIn k (a ++ [(j, t)]) = if j = k then t else lastIn k a := by
  unfold lastIn
  rw [List.filter_append]
  by_cases h : j = k
  · simp [h]
  · simp [h]

end events

section map

variable {N K : Type} [LinearOrder N]

theorem find_store (name name' : N) (e : Entry K) (l : List (N × Entry K)) :
    find name' (store name e l) = if name = name' then some e else find name' l := by
  induction l with
  | nil => simp [store, find]
  | cons x xs ih =>
    unfold store
    split
    · rename_i h
      simp only [find]
    · split
      · rename_i h1 h2
        simp only [find]
        by_cases h : name = name'
        · simp [h]
        · have : x.1 ≠ name' := by rw [h2]; exact h
          simp [h, this]
      · rename_i h1 h2
        simp only [find, ih]
        by_cases h : name = name'
        · subst h; simp [h2]
        · simp [h]

theorem store_names (name : N) (e : Entry K) (l : List (N × Entry K)) (n : N) :
    n ∈ (store name e l).map Prod.fst ↔ n = name ∨ n ∈ l.map Prod.fst := by
  induction l with
  | nil => simp [store]
  | cons x xs ih =>
    unfold store
    split
    · simp only [List.map_cons, List.mem_cons]
    · split
      · rename_i h1 h2
        simp only [List.map_cons, List.mem_cons, h2]
        tauto
      · simp only [List.map_cons, List.mem_cons, ih]
        tauto

theorem store_sorted (name : N) (e : Entry K) (l : List (N × Entry K)) (h : (l.map Prod.fst).Pairwise (· < ·)) :
    ((store name e l).map Prod.fst).Pairwise (· < ·) := by
  induction l with
  | nil => simp [store]
  | cons x xs ih =>
    simp only [List.map_cons, List.pairwise_cons] at h
    unfold store
    split
    · rename_i hlt
      simp only [List.map_cons, List.pairwise_cons, List.mem_cons]
      refine ⟨?_, h⟩
      rintro a (rfl | ha)
      · exact hlt
      · exact hlt.trans (h.1 a ha)
    · split
      · rename_i h1 h2
        simp only [List.map_cons, List.pairwise_cons]
        rw [← h2]
        exact h
      · rename_i h1 h2
        simp only [List.map_cons, List.pairwise_cons]
        refine ⟨?_, ih h.2⟩
        intro a ha
        rcases (store_names ..).1 ha with rfl | ha
        · exact lt_of_le_of_ne (not_lt.1 h1) h2
        · exact h.1 a ha

theorem find_mem (l : List (N × Entry K)) (h : (l.map Prod.fst).Pairwise (· < ·)) (x : N × Entry K) (hx : x ∈ l) : find x.1 l = some x.2 := by
  induction l with
  | nil => cases hx
  | cons y ys ih =>
    simp only [List.map_cons, List.pairwise_cons] at h
    unfold find
    rcases List.mem_cons.1 hx with rfl | hx
    · simp
    · have : y.1 ≠ x.1 := (h.1 x.1 (List.mem_map_of_mem hx)).ne
      rw [if_neg this]
      exact ih h.2 hx

theorem find_isSome (l : List (N × Entry K)) (n : N) : n ∈ l.map Prod.fst ↔ ∃ e, find n l = some e := by
  induction l with
  | nil => simp [find]
  | cons y ys ih =>
    unfold find
    by_cases h : y.1 = n
    · simp [h]
    · rw [if_neg h, ← ih]
      simp only [List.map_cons, List.mem_cons]
      constructor
      · rintro (h' | h')
        · exact absurd h'.symm h
        · exact h'
      · exact Or.inr

theorem find_map (f : Entry K → Entry K) (l : List (N × Entry K)) (n : N) :
    find n (l.map fun x => (x.1, f x.2)) = (find n l).map f := by
  induction l with
  | nil => rfl
  | cons y ys ih =>
    simp only [List.map_cons, find, ih]
    split <;> rfl

end map

section invariant

variable {N K : Type} [LinearOrder N] [Field K] [LinearOrder K]

/-- The timings are those of the history. -/
def Recorded (n : Nat) (es : List (Event N K)) (name : Option N) (x : List (Timing K)) : Prop :=
  x.length = n ∧ ∀ k, k < n → x[k]? = some ⟨lastIn k (starts name 0 es), lastIn k (stops name 0 es)⟩

/-- What holds after a history. -/
structure Inv (n : Nat) (es : List (Event N K)) (h : Helper N K) : Prop where
  run : h.run = completed es
  max : h.maxRuns = n
  total : Recorded n es none h.runTimes.timings
  sorted : (h.tasks.map Prod.fst).Pairwise (· < ·)
  tasks : ∀ name e, find name h.tasks = some e → Recorded n es (some name) e.timings
  known : ∀ name, (∃ e, find name h.tasks = some e) ↔ Started name es
  absent : ∀ name, find name h.tasks = none → starts (some name) 0 es = [] ∧ stops (some name) 0 es = []

/-- The statistics are those of the timings. -/
def Current (big : K) (sqrt : K → K) (e : Entry K) : Prop := updateEntry big sqrt e = e

theorem started_append (name : N) (a : List (Event N K)) (e : Event N K) :
    Started name (a ++ [e]) ↔ Started name a ∨ ∃ t, e = .start name t := by
  unfold Started
  simp only [List.mem_append, List.mem_singleton]
  constructor
  · rintro ⟨t, h | h⟩
    · exact Or.inl ⟨t, h⟩
    · exact Or.inr ⟨t, h.symm⟩
  · rintro (⟨t, h⟩ | ⟨t, h⟩)
    · exact ⟨t, Or.inl h⟩
    · exact ⟨t, Or.inr h.symm⟩

theorem fresh_recorded (n : Nat) (es : List (Event N K)) (name : Option N) (h1 : starts name 0 es = []) (h2 : stops name 0 es = []) :
    Recorded n es name (fresh n) := by
  refine ⟨by simp [fresh], ?_⟩
  intro k hk
  rw [h1, h2]
  simp [fresh, hk, lastIn]

theorem inv_new (n : Nat) : Inv n ([] : List (Event N K)) (Helper.new n) where
  run := rfl
  max := rfl
  total := fresh_recorded n [] none rfl rfl
  sorted := by simp [Helper.new]
  tasks := by intro name e h; cases h
  known := by intro name; simp [Helper.new, find, Started]
  absent := by intro name _; exact ⟨rfl, rfl⟩

theorem setStart_ok {x y : List (Timing K)} {r : Nat} {t : K} (h : setStart x r t = .ok y) :
    r < x.length ∧ ∃ z, x[r]? = some z ∧ y = x.set r { z with start := t } := by
  unfold setStart at h
  rcases hz : x[r]? with _ | z <;> rw [hz] at h
  · cases h
  · cases h
    exact ⟨(List.getElem?_eq_some_iff.1 hz).1, z, rfl, rfl⟩

theorem setStop_ok {x y : List (Timing K)} {r : Nat} {t : K} (h : setStop x r t = .ok y) :
    r < x.length ∧ ∃ z, x[r]? = some z ∧ y = x.set r { z with stop := t } := by
  unfold setStop at h
  rcases hz : x[r]? with _ | z <;> rw [hz] at h
  · cases h
  · cases h
    exact ⟨(List.getElem?_eq_some_iff.1 hz).1, z, rfl, rfl⟩

theorem setStart_defined (x : List (Timing K)) (r : Nat) (t : K) : (∃ y, setStart x r t = .ok y) ↔ r < x.length := by
  constructor
  · rintro ⟨y, h⟩; exact (setStart_ok h).1
  · intro h; unfold setStart; rw [List.getElem?_eq_getElem h]; exact ⟨_, rfl⟩

theorem setStop_defined (x : List (Timing K)) (r : Nat) (t : K) : (∃ y, setStop x r t = .ok y) ↔ r < x.length := by
  constructor
  · rintro ⟨y, h⟩; exact (setStop_ok h).1
  · intro h; unfold setStop; rw [List.getElem?_eq_getElem h]; exact ⟨_, rfl⟩

/-- A start of `name` is recorded. -/
theorem recorded_start {n : Nat} {es : List (Event N K)} {name : Option N} {x y : List (Timing K)} {t : K} (hr : Recorded n es name x)
    (h : setStart x (completed es) t = .ok y) (e : Event N K)
    (h1 : starts name (completed es) [e] = [(completed es, t)]) (h2 : stops name (completed es) [e] = []) :
    Recorded n (es ++ [e]) name y := by
  obtain ⟨hlt, z, hz, rfl⟩ := setStart_ok h
  refine ⟨by simp [hr.1], ?_⟩
  intro k hk
  rw [starts_append, stops_append, Nat.zero_add, h1, h2, List.append_nil, lastIn_append, List.getElem?_set]
  by_cases hk' : completed es = k
  · subst hk'
    have := hr.2 _ hk
    rw [hz] at this
    cases this
    simp [hlt]
  · simp [hk', hr.2 k hk]

/-- An end of `name` is recorded. -/
theorem recorded_stop {n : Nat} {es : List (Event N K)} {name : Option N} {x y : List (Timing K)} {t : K} (hr : Recorded n es name x)
    (h : setStop x (completed es) t = .ok y) (e : Event N K)
    (h1 : starts name (completed es) [e] = []) (h2 : stops name (completed es) [e] = [(completed es, t)]) :
    Recorded n (es ++ [e]) name y := by
  obtain ⟨hlt, z, hz, rfl⟩ := setStop_ok h
  refine ⟨by simp [hr.1], ?_⟩
  intro k hk
  rw [starts_append, stops_append, Nat.zero_add, h1, h2, List.append_nil, lastIn_append, List.getElem?_set]
  by_cases hk' : completed es = k
  · subst hk'
    have := hr.2 _ hk
    rw [hz] at this
    cases this
    simp [hlt]
  · simp [hk', hr.2 k hk]

/-- Other events do not matter. -/
theorem recorded_other {n : Nat} {es : List (Event N K)} {name : Option N} {x : List (Timing K)} (hr : Recorded n es name x) (e : Event N K)
    (h1 : starts name (completed es) [e] = []) (h2 : stops name (completed es) [e] = []) : Recorded n (es ++ [e]) name x := by
  refine ⟨hr.1, ?_⟩
  intro k hk
  rw [starts_append, stops_append, Nat.zero_add, h1, h2, List.append_nil, List.append_nil]
  exact hr.2 k hk

theorem absent_other {es : List (Event N K)} {name : N} (e : Event N K) (h : starts (some name) 0 es = [] ∧ stops (some name) 0 es = [])
    (h1 : starts (some name) (completed es) [e] = []) (h2 : stops (some name) (completed es) [e] = []) :
    starts (some name) 0 (es ++ [e]) = [] ∧ stops (some name) 0 (es ++ [e]) = [] := by
  rw [starts_append, stops_append, Nat.zero_add, h1, h2, h.1, h.2]
  exact ⟨rfl, rfl⟩

theorem bind_ok {α β : Type} {x : Except Failure α} {f : α → Except Failure β} {b : β} (h : (x >>= f) = .ok b) : ∃ a, x = .ok a ∧ f a = .ok b := by
  cases x with
  | error e => cases h
  | ok a => exact ⟨a, rfl, h⟩

theorem ok_bind {α β : Type} {x : Except Failure α} {f : α → Except Failure β} {a : α} (h : x = .ok a) : (x >>= f) = f a := by
  rw [h]; rfl

/-- `start_run` keeps the invariant. -/
theorem inv_startRun {n : Nat} {es : List (Event N K)} {h h' : Helper N K} (hi : Inv n es h) {t : K} (hs : h.startRun t = .ok h') :
    Inv n (es ++ [.startRun t]) h' ∧ h'.stale = true ∧ completed es < n := by
  unfold Helper.startRun at hs
  by_cases hm : h.maxRuns ≤ h.run
  · rw [if_pos hm] at hs; cases hs
  rw [if_neg hm] at hs
  obtain ⟨x, hx, hs⟩ := bind_ok hs
  cases hs
  rw [hi.run] at hx
  refine ⟨⟨?_, hi.max, recorded_start hi.total hx _ (by simp [starts]) (by simp [stops]), hi.sorted, ?_, ?_, ?_⟩, rfl, ?_⟩
  · simp [completed_append, completed, hi.run]
  · intro name e he
    exact recorded_other (hi.tasks name e he) _ (by simp [starts]) (by simp [stops])
  · intro name
    rw [started_append]
    simp only [reduceCtorEq, exists_false, or_false]
    exact hi.known name
  · intro name he
    exact absent_other _ (hi.absent name he) (by simp [starts]) (by simp [stops])
  · rw [← hi.run, ← hi.max]; omega

/-- `end_run` keeps the invariant. -/
theorem inv_endRun {n : Nat} {es : List (Event N K)} {h h' : Helper N K} (hi : Inv n es h) {t : K} (hs : h.endRun t = .ok h') :
    Inv n (es ++ [.endRun t]) h' ∧ h'.stale = h.stale ∧ completed es < n := by
  unfold Helper.endRun at hs
  obtain ⟨x, hx, hs⟩ := bind_ok hs
  cases hs
  rw [hi.run] at hx
  refine ⟨⟨?_, hi.max, recorded_stop hi.total hx _ (by simp [starts]) (by simp [stops]), hi.sorted, ?_, ?_, ?_⟩, rfl, ?_⟩
  · simp [completed_append, completed, hi.run]
  · intro name e he
    exact recorded_other (hi.tasks name e he) _ (by simp [starts]) (by simp [stops])
  · intro name
    rw [started_append]
    simp only [reduceCtorEq, exists_false, or_false]
    exact hi.known name
  · intro name he
    exact absent_other _ (hi.absent name he) (by simp [starts]) (by simp [stops])
  · have := (setStop_ok hx).1
    rw [hi.total.1] at this
    exact this

/-- `start` keeps the invariant. -/
theorem inv_start {n : Nat} {es : List (Event N K)} {h h' : Helper N K} (hi : Inv n es h) {name : N} {t : K} (hs : h.start name t = .ok h') :
    Inv n (es ++ [.start name t]) h' ∧ h'.stale = true ∧ completed es < n := by
  unfold Helper.start at hs
  obtain ⟨x, hx, hs⟩ := bind_ok hs
  cases hs
  rw [hi.run] at hx
  have hrec : Recorded n es (some name) ((find name h.tasks).getD ⟨fresh h.maxRuns, none⟩).timings := by
    rcases hf : find name h.tasks with _ | e
    · have := hi.absent name hf
      rw [Option.getD_none, hi.max]
      exact fresh_recorded n es _ this.1 this.2
    · exact hi.tasks name e hf
  refine ⟨⟨?_, hi.max, recorded_other hi.total _ (by simp [starts]) (by simp [stops]), store_sorted _ _ _ hi.sorted, ?_, ?_, ?_⟩, rfl, ?_⟩
  · simp [completed_append, completed, hi.run]
  · intro m e he
    rw [find_store] at he
    by_cases hm : name = m
    · subst hm
      rw [if_pos rfl] at he
      cases he
      exact recorded_start hrec hx _ (by simp [starts]) (by simp [stops])
    · rw [if_neg hm] at he
      exact recorded_other (hi.tasks m e he) _ (by simp [starts, Ne.symm hm]) (by simp [stops])
  · intro m
    rw [started_append, find_store]
    by_cases hm : name = m
    · subst hm
      simp
    · rw [if_neg hm, hi.known m]
      simp [hm]
  · intro m he
    rw [find_store] at he
    by_cases hm : name = m
    · rw [if_pos hm] at he; cases he
    · rw [if_neg hm] at he
      exact absent_other _ (hi.absent m he) (by simp [starts, Ne.symm hm]) (by simp [stops])
  · have := (setStart_ok hx).1
    rw [hrec.1] at this
    exact this

/-- `end` keeps the invariant. -/
theorem inv_stop {n : Nat} {es : List (Event N K)} {h h' : Helper N K} (hi : Inv n es h) {name : N} {t : K} (hs : h.stop name t = .ok h') :
    Inv n (es ++ [.stop name t]) h' ∧ h'.stale = true ∧ completed es < n ∧ Started name es := by
  unfold Helper.stop at hs
  obtain ⟨x, hx, hs⟩ := bind_ok hs
  cases hs
  rw [hi.run] at hx
  rcases hf : find name h.tasks with _ | e
  · rw [hf] at hx
    exact absurd (setStop_ok hx).1 (by simp)
  rw [hf, Option.getD_some] at hx
  have hrec := hi.tasks name e hf
  refine ⟨⟨?_, hi.max, recorded_other hi.total _ (by simp [starts]) (by simp [stops]), store_sorted _ _ _ hi.sorted, ?_, ?_, ?_⟩, rfl, ?_, ?_⟩
  · simp [completed_append, completed, hi.run]
  · intro m e' he
    rw [find_store] at he
    by_cases hm : name = m
    · subst hm
      rw [if_pos rfl] at he
      cases he
      exact recorded_stop hrec hx _ (by simp [starts]) (by simp [stops])
    · rw [if_neg hm] at he
      exact recorded_other (hi.tasks m e' he) _ (by simp [starts]) (by simp [stops, Ne.symm hm])
  · intro m
    rw [started_append, find_store]
    simp only [reduceCtorEq, exists_false, or_false]
    rw [← hi.known m]
    by_cases hm : name = m
    · subst hm
      simp [hf]
    · rw [if_neg hm]
  · intro m he
    rw [find_store] at he
    by_cases hm : name = m
    · rw [if_pos hm] at he; cases he
    · rw [if_neg hm] at he
      exact absent_other _ (hi.absent m he) (by simp [starts]) (by simp [stops, Ne.symm hm])
  · have := (setStop_ok hx).1
    rw [hrec.1] at this
    exact this
  · exact (hi.known name).1 ⟨e, hf⟩

/-- Updating the statistics keeps the invariant. -/
theorem inv_update {n : Nat} {es : List (Event N K)} {h : Helper N K} (hi : Inv n es h) (big : K) (sqrt : K → K) :
    Inv n es (h.updateStatistics big sqrt) where
  run := hi.run
  max := hi.max
  total := hi.total
  sorted := by
    have : ((h.updateStatistics big sqrt).tasks.map Prod.fst) = h.tasks.map Prod.fst := by
      simp [Helper.updateStatistics, Function.comp_def]
    rw [this]; exact hi.sorted
  tasks := by
    intro name e he
    unfold Helper.updateStatistics at he
    dsimp only at he
    rw [find_map] at he
    rcases hf : find name h.tasks with _ | e' <;> rw [hf] at he
    · cases he
    · cases he
      exact hi.tasks name e' hf
  known := by
    intro name
    rw [← hi.known name]
    unfold Helper.updateStatistics
    dsimp only
    rw [find_map]
    rcases hf : find name h.tasks with _ | e' <;> simp
  absent := by
    intro name he
    unfold Helper.updateStatistics at he
    dsimp only at he
    rw [find_map] at he
    exact hi.absent name (by simpa using he)

/-- `print` keeps the invariant. -/
theorem inv_print {n : Nat} {es : List (Event N K)} {h : Helper N K} (hi : Inv n es h) (big : K) (sqrt : K → K) :
    Inv n (es ++ [.print]) (h.print big sqrt).1 := by
  have hp : Inv n es (h.print big sqrt).1 := by
    unfold Helper.print
    dsimp only
    split
    · exact inv_update hi big sqrt
    · exact hi
  exact ⟨by simp [completed_append, completed, hp.run], hp.max, recorded_other hp.total _ (by simp [starts]) (by simp [stops]), hp.sorted,
    fun name e he => recorded_other (hp.tasks name e he) _ (by simp [starts]) (by simp [stops]),
    fun name => by
      rw [started_append]; simp only [reduceCtorEq, exists_false, or_false]; exact hp.known name,
    fun name he => absent_other _ (hp.absent name he) (by simp [starts]) (by simp [stops])⟩

/-- All statistics are those of the timings. -/
def AllCurrent (big : K) (sqrt : K → K) (h : Helper N K) : Prop :=
  (∀ name e, find name h.tasks = some e → Current big sqrt e) ∧ Current big sqrt h.runTimes

theorem update_idem (big : K) (sqrt : K → K) (e : Entry K) : Current big sqrt (updateEntry big sqrt e) := by
  unfold Current updateEntry
  rfl

theorem update_current (big : K) (sqrt : K → K) (h : Helper N K) : AllCurrent big sqrt (h.updateStatistics big sqrt) := by
  refine ⟨?_, update_idem _ _ _⟩
  intro name e he
  unfold Helper.updateStatistics at he
  dsimp only at he
  rw [find_map] at he
  rcases hf : find name h.tasks with _ | e' <;> rw [hf] at he
  · cases he
  · cases he
    exact update_idem _ _ _

theorem history_append (big : K) (sqrt : K → K) (s : Helper N K × List (List (Row N K))) (a b : List (Event N K)) :
    history big sqrt s (a ++ b) = (history big sqrt s a >>= fun s' => history big sqrt s' b) := by
  induction a generalizing s with
  | nil => rfl
  | cons e a ih =>
    simp only [List.cons_append, history]
    rcases step big sqrt s e with f | s'
    · rfl
    · exact ih s'

/-- The last event of a successful history. -/
theorem history_snoc {big : K} {sqrt : K → K} {s s' : Helper N K × List (List (Row N K))} {a : List (Event N K)} {e : Event N K}
    (h : history big sqrt s (a ++ [e]) = .ok s') : ∃ m, history big sqrt s a = .ok m ∧ step big sqrt m e = .ok s' := by
  rw [history_append] at h
  obtain ⟨m, hm, h⟩ := bind_ok h
  refine ⟨m, hm, ?_⟩
  unfold history at h
  obtain ⟨m', hm', h⟩ := bind_ok h
  cases h
  exact hm'

/-- What holds after a successful history. -/
theorem history_inv {n : Nat} {big : K} {sqrt : K → K} (es : List (Event N K)) (s : Helper N K × List (List (Row N K)))
    (h : history big sqrt (Helper.new n, []) es = .ok s) :
    Inv n es s.1 ∧ (Proper es → (inRun false es = true → s.1.stale = true) ∧ (s.1.stale = false → AllCurrent big sqrt s.1)) ∧
      (s.1.stale = false → (∀ name e, find name s.1.tasks = some e → e.stats ≠ none) ∧ s.1.runTimes.stats ≠ none) ∧ Allowed n es := by
  induction es using List.reverseRecOn generalizing s with
  | nil =>
    cases h
    refine ⟨inv_new n, fun _ => ⟨fun h => (by cases h), fun h => (by cases h)⟩, fun h => (by cases h), ?_⟩
    intro a b e h
    exact absurd h.symm (by simp)
  | append_singleton es e ih =>
    obtain ⟨m, hm, hs⟩ := history_snoc h
    obtain ⟨hi, hp, hst, hal⟩ := ih m hm
    have proper : Proper (es ++ [e]) → Proper es ∧ ((e = .print → inRun false es = false) ∧ ∀ t, e = .endRun t → inRun false es = true) := by
      intro hpr
      refine ⟨?_, hpr es [] e rfl⟩
      intro a b e' hab
      exact hpr a (b ++ [e]) e' (by rw [hab]; simp)
    have allowed : ((e ≠ .print → completed es < n) ∧ ∀ name t, e = .stop name t → Started name es) → Allowed n (es ++ [e]) := by
      intro hx a b e' hab
      rcases List.eq_nil_or_concat b with rfl | ⟨b', f, rfl⟩
      · have := List.append_inj' hab rfl
        cases this.1
        cases this.2
        exact hx
      · have h' : es ++ [e] = (a ++ e' :: b') ++ [f] := by rw [hab]; simp
        have := (List.append_inj' h' rfl).1
        exact hal a b' e' this
    cases e with
    | startRun t =>
      obtain ⟨h', hh, hs⟩ := bind_ok hs
      cases hs
      obtain ⟨h1, h2, h3⟩ := inv_startRun hi hh
      refine ⟨h1, fun _ => ⟨fun _ => h2, fun h => ?_⟩, fun h => ?_, allowed ⟨fun _ => h3, by intro _ _ h; cases h⟩⟩
      · exact absurd h2 (by rw [h]; simp)
      · exact absurd h2 (by rw [h]; simp)
    | endRun t =>
      obtain ⟨h', hh, hs⟩ := bind_ok hs
      cases hs
      obtain ⟨h1, h2, h3⟩ := inv_endRun hi hh
      refine ⟨h1, fun hpr => ?_, fun h => ?_, allowed ⟨fun _ => h3, by intro _ _ h; cases h⟩⟩
      · obtain ⟨q1, q2⟩ := proper hpr
        have := (hp q1).1 (q2.2 t rfl)
        dsimp only
        rw [h2, this]
        exact ⟨fun _ => rfl, fun h => by cases h⟩
      · dsimp only at h
        rw [h2] at h
        have := hst h
        unfold Helper.endRun at hh
        obtain ⟨x, hx, hh⟩ := bind_ok hh
        cases hh
        exact this
    | start name t =>
      obtain ⟨h', hh, hs⟩ := bind_ok hs
      cases hs
      obtain ⟨h1, h2, h3⟩ := inv_start hi hh
      refine ⟨h1, fun _ => ⟨fun _ => h2, fun h => ?_⟩, fun h => ?_, allowed ⟨fun _ => h3, by intro _ _ h; cases h⟩⟩
      · exact absurd h2 (by rw [h]; simp)
      · exact absurd h2 (by rw [h]; simp)
    | stop name t =>
      obtain ⟨h', hh, hs⟩ := bind_ok hs
      cases hs
      obtain ⟨h1, h2, h3, h4⟩ := inv_stop hi hh
      refine ⟨h1, fun _ => ⟨fun _ => h2, fun h => ?_⟩, fun h => ?_, allowed ⟨fun _ => h3, by intro m u h; cases h; exact h4⟩⟩
      · exact absurd h2 (by rw [h]; simp)
      · exact absurd h2 (by rw [h]; simp)
    | print =>
      cases hs
      refine ⟨inv_print hi big sqrt, fun hpr => ?_, fun _ => ?_, allowed ⟨fun h => absurd rfl h, by intro _ _ h; cases h⟩⟩
      · obtain ⟨q1, q2⟩ := proper hpr
        refine ⟨fun hr => ?_, fun _ => ?_⟩
        · rw [inRun_append, q2.1 rfl] at hr
          cases hr
        · unfold Helper.print
          dsimp only
          split
          · exact update_current _ _ _
          · rename_i hb
            exact (hp q1).2 (by simpa using hb)
      · unfold Helper.print
        dsimp only
        split
        · obtain ⟨c1, c2⟩ := update_current big sqrt m.1
          exact ⟨fun name e he => by rw [← c1 name e he]; simp [updateEntry], by rw [← c2]; simp [updateEntry]⟩
        · rename_i hb
          exact hst (by simpa using hb)

/-- Allowed operations succeed. -/
theorem history_defined {n : Nat} {big : K} {sqrt : K → K} (es : List (Event N K)) (h : Allowed n es) :
    ∃ s, history big sqrt (Helper.new n, []) es = .ok s := by
  induction es using List.reverseRecOn with
  | nil => exact ⟨_, rfl⟩
  | append_singleton es e ih =>
    obtain ⟨m, hm⟩ := ih (by
      intro a b e' hab
      exact h a (b ++ [e]) e' (by rw [hab]; simp))
    obtain ⟨hi, -, -, -⟩ := history_inv es m hm
    obtain ⟨h1, h2⟩ := h es [] e rfl
    rw [history_append, ok_bind hm]
    have last : ∀ s', step big sqrt m e = .ok s' → ∃ s, history big sqrt m [e] = .ok s := by
      intro s' hs'
      unfold history
      rw [ok_bind hs']
      exact ⟨s', rfl⟩
    cases e with
    | startRun t =>
      have hlt := h1 (by simp)
      obtain ⟨y, hy⟩ := (setStart_defined m.1.runTimes.timings m.1.run t).2 (by rw [hi.total.1, hi.run]; exact hlt)
      apply last
      show (m.1.startRun t >>= fun h => Except.ok (h, m.2)) = _
      unfold Helper.startRun
      rw [if_neg (by rw [hi.run, hi.max]; omega), hy]
      rfl
    | endRun t =>
      have hlt := h1 (by simp)
      obtain ⟨y, hy⟩ := (setStop_defined m.1.runTimes.timings m.1.run t).2 (by rw [hi.total.1, hi.run]; exact hlt)
      apply last
      show (m.1.endRun t >>= fun h => Except.ok (h, m.2)) = _
      unfold Helper.endRun
      dsimp only
      rw [hy]
      rfl
    | start name t =>
      have hlt := h1 (by simp)
      have hlen : ((find name m.1.tasks).getD ⟨fresh m.1.maxRuns, none⟩).timings.length = n := by
        rcases hf : find name m.1.tasks with _ | e
        · simp [fresh, hi.max]
        · exact (hi.tasks name e hf).1
      obtain ⟨y, hy⟩ := (setStart_defined ((find name m.1.tasks).getD ⟨fresh m.1.maxRuns, none⟩).timings m.1.run t).2 (by rw [hlen, hi.run]; exact hlt)
      apply last
      show (m.1.start name t >>= fun h => Except.ok (h, m.2)) = _
      unfold Helper.start
      dsimp only
      rw [hy]
      rfl
    | stop name t =>
      have hlt := h1 (by simp)
      obtain ⟨e, he⟩ := (hi.known name).2 (h2 name t rfl)
      obtain ⟨y, hy⟩ := (setStop_defined e.timings m.1.run t).2 (by rw [(hi.tasks name e he).1, hi.run]; exact hlt)
      apply last
      show (m.1.stop name t >>= fun h => Except.ok (h, m.2)) = _
      unfold Helper.stop
      rw [he, Option.getD_some]
      dsimp only
      rw [hy]
      rfl
    | print => exact last _ rfl

end invariant

section statistics

variable {K : Type} [Field K] [LinearOrder K] [IsStrictOrderedRing K]

omit [IsStrictOrderedRing K] in
theorem fold_accumulate (l : List (Timing K)) (s : Stats K) : l.foldl accumulate s =
    ⟨(l.map Timing.elapsed).foldl Min.min s.min, (l.map Timing.elapsed).foldl Max.max s.max, s.avg + (l.map Timing.elapsed).sum,
      s.dev + ((l.map Timing.elapsed).map fun y => y * y).sum⟩ := by
  induction l generalizing s with
  | nil => simp
  | cons x l ih =>
    rw [List.foldl_cons, ih]
    simp [accumulate, add_assoc]

omit [Field K] [IsStrictOrderedRing K] in
theorem foldl_min_spec (l : List K) (a : K) : (l.foldl Min.min a = a ∨ l.foldl Min.min a ∈ l) ∧ l.foldl Min.min a ≤ a ∧ ∀ y ∈ l, l.foldl Min.min a ≤ y := by
  induction l generalizing a with
  | nil => simp
  | cons x l ih =>
    obtain ⟨h1, h2, h3⟩ := ih (Min.min a x)
    rw [List.foldl_cons]
    refine ⟨?_, h2.trans (min_le_left _ _), ?_⟩
    · rcases h1 with h1 | h1
      · rw [h1]
        rcases min_choice a x with h | h
        · exact Or.inl h
        · rw [h]; simp
      · exact Or.inr (List.mem_cons_of_mem _ h1)
    · intro y hy
      rcases List.mem_cons.1 hy with rfl | hy
      · exact h2.trans (min_le_right _ _)
      · exact h3 y hy

omit [Field K] [IsStrictOrderedRing K] in
theorem foldl_max_spec (l : List K) (a : K) : (l.foldl Max.max a = a ∨ l.foldl Max.max a ∈ l) ∧ a ≤ l.foldl Max.max a ∧ ∀ y ∈ l, y ≤ l.foldl Max.max a := by
  induction l generalizing a with
  | nil => simp
  | cons x l ih =>
    obtain ⟨h1, h2, h3⟩ := ih (Max.max a x)
    rw [List.foldl_cons]
    refine ⟨?_, (le_max_left _ _).trans h2, ?_⟩
    · rcases h1 with h1 | h1
      · rw [h1]
        rcases max_choice a x with h | h
        · exact Or.inl h
        · rw [h]; simp
      · exact Or.inr (List.mem_cons_of_mem _ h1)
    · intro y hy
      rcases List.mem_cons.1 hy with rfl | hy
      · exact (le_max_right _ _).trans h2
      · exact h3 y hy

omit [LinearOrder K] [IsStrictOrderedRing K] in
theorem sum_deviations (l : List K) (a : K) : (l.map fun y => (y - a) ^ 2).sum = (l.map fun y => y * y).sum - 2 * a * l.sum + a * a * l.length := by
  induction l with
  | nil => simp
  | cons x l ih =>
    simp only [List.map_cons, List.sum_cons, ih, List.length_cons, Nat.cast_add, Nat.cast_one]
    ring

theorem sum_squares_nonneg (l : List K) (a : K) : 0 ≤ (l.map fun y => (y - a) ^ 2).sum := by
  induction l with
  | nil => simp
  | cons x l ih =>
    simp only [List.map_cons, List.sum_cons]
    exact add_nonneg (sq_nonneg _) ih

/-- `update_entry` computes the statistics. -/
theorem updateEntry_spec (big : K) (sqrt : K → K) (e : Entry K) (hne : e.timings ≠ []) (h0 : ∀ y ∈ e.timings.map Timing.elapsed, 0 ≤ y ∧ y ≤ big) :
    ∃ s, (updateEntry big sqrt e).stats = some s ∧ IsStatistics sqrt (e.timings.map Timing.elapsed) s := by
  refine ⟨_, rfl, ?_⟩
  unfold IsStatistics
  rw [fold_accumulate]
  dsimp only
  have hlen : (e.timings.map Timing.elapsed).length = e.timings.length := List.length_map _
  generalize hl : e.timings.map Timing.elapsed = l at *
  have hne' : l ≠ [] := by rw [← hl]; simpa using hne
  obtain ⟨y, hy⟩ := List.exists_mem_of_ne_nil l hne'
  have hpos : (0 : K) < (l.length : K) := by
    have : 0 < l.length := List.length_pos_iff.2 hne'
    exact_mod_cast this
  rw [← hlen]
  simp only [zero_add]
  refine ⟨⟨?_, (foldl_min_spec l big).2.2⟩, ⟨?_, (foldl_max_spec l 0).2.2⟩, div_mul_cancel₀ _ hpos.ne', _, rfl, ?_⟩
  · rcases (foldl_min_spec l big).1 with h | h
    · have h1 := (foldl_min_spec l big).2.2 y hy
      rw [h] at h1
      have : y = big := le_antisymm (h0 y hy).2 h1
      rw [h, ← this]; exact hy
    · exact h
  · rcases (foldl_max_spec l 0).1 with h | h
    · have h1 := (foldl_max_spec l 0).2.2 y hy
      rw [h] at h1
      have : y = 0 := le_antisymm h1 (h0 y hy).1
      rw [h, ← this]; exact hy
    · exact h
  · have key : ((l.map fun y => y * y).sum / (l.length : K) - l.sum / (l.length : K) * (l.sum / (l.length : K))) * (l.length : K) =
        (l.map fun y => (y - l.sum / (l.length : K)) ^ 2).sum := by
      rw [sum_deviations]
      field_simp
      ring
    refine ⟨?_, key⟩
    have h2 := sum_squares_nonneg l (l.sum / (l.length : K))
    rw [← key] at h2
    exact nonneg_of_mul_nonneg_left h2 hpos

end statistics

end Verif.Benchmark
