import Verif.Proofs.Benchmark
import Mathlib.Algebra.Order.Ring.Rat
import Mathlib.Algebra.Field.Rat
/-
Theorems about the measurement of times with `BenchmarkHelper` (C219).
-/
namespace Verif

open Benchmark Benchmark.Spec

section general

variable {N K : Type} [LinearOrder N] [Field K] [LinearOrder K]

/-- C219 (which operations are allowed): a history of operations of an object made for `n` runs neither throws nor accesses memory outside of
its vectors if and only if nothing is measured after `n` runs were completed and only tasks that were started are ended. -/
theorem C219_defined (n : Nat) (big : K) (sqrt : K → K) (es : List (Event N K)) :
    (∃ s, history big sqrt (Helper.new n, []) es = .ok s) ↔ Allowed n es :=
  ⟨fun ⟨s, h⟩ => (history_inv es s h).2.2.2, history_defined es⟩

/-- C219 (number of runs): `start_run` throws if and only if `n` runs were completed. -/
theorem C219_limit (n : Nat) (big : K) (sqrt : K → K) (es : List (Event N K)) (s : Helper N K × List (List (Row N K)))
    (h : history big sqrt (Helper.new n, []) es = .ok s) (t : K) : s.1.startRun t = .error .rangeError ↔ n ≤ completed es := by
  obtain ⟨hi, -, -, -⟩ := history_inv es s h
  unfold Helper.startRun
  rw [hi.run, hi.max]
  constructor
  · intro hs
    by_contra hlt
    rw [if_neg hlt] at hs
    unfold setStart at hs
    rw [hi.total.2 _ (by omega)] at hs
    cases hs
  · intro hs
    rw [if_pos hs]

/-- C219 (report): after every history, `print` lists every task that was started exactly once, in the order of the names, and then the total;
the time shown for run `k` is the time from the last start to the last end in this run; and the statistics shown have been computed. -/
theorem C219_report (n : Nat) (big : K) (sqrt : K → K) (es : List (Event N K)) (s : Helper N K × List (List (Row N K)))
    (h : history big sqrt (Helper.new n, []) (es ++ [.print]) = .ok s) :
    ∃ (earlier : List (List (Row N K))) (names : List N) (rows : List (Row N K)) (total : Row N K), s.2 = earlier ++ [rows ++ [total]] ∧
      names.Pairwise (· < ·) ∧ (∀ name, name ∈ names ↔ Started name es) ∧ rows.map (·.name) = names.map some ∧ total.name = none ∧
      ∀ row ∈ rows ++ [total], row.stats ≠ none ∧ row.times.length = n ∧ ∀ k, k < n → row.times[k]? = some (duration es row.name k) := by
  obtain ⟨m, hm, hs⟩ := history_snoc h
  obtain ⟨hi, -, hst, -⟩ := history_inv es m hm
  cases hs
  have hp : ∃ h', (m.1.print big sqrt) = (h', (h'.tasks.map fun x => printEntry (some x.1) x.2) ++ [printEntry none h'.runTimes]) ∧ Inv n es h' ∧
      (∀ name e, find name h'.tasks = some e → e.stats ≠ none) ∧ h'.runTimes.stats ≠ none := by
    unfold Helper.print
    refine ⟨_, rfl, ?_⟩
    split
    · obtain ⟨c1, c2⟩ := update_current big sqrt m.1
      exact ⟨inv_update hi big sqrt, fun name e he => by rw [← c1 name e he]; simp [updateEntry], by rw [← c2]; simp [updateEntry]⟩
    · rename_i hb
      exact ⟨hi, hst (by simpa using hb)⟩
  obtain ⟨h', hpr, hi', c1, c2⟩ := hp
  rw [hpr]
  refine ⟨m.2, h'.tasks.map Prod.fst, h'.tasks.map (fun x => printEntry (some x.1) x.2), printEntry none h'.runTimes, rfl, hi'.sorted, ?_, ?_, rfl, ?_⟩
  · intro name
    rw [find_isSome]
    exact hi'.known name
  · simp [printEntry, Function.comp_def]
  · have shown : ∀ (name : Option N) (e : Entry K), Recorded n es name e.timings →
        (printEntry name e).times.length = n ∧ ∀ k, k < n → (printEntry name e).times[k]? = some (duration es name k) := by
      intro name e hr
      refine ⟨by simp [printEntry, hr.1], ?_⟩
      intro k hk
      simp only [printEntry, List.getElem?_map, hr.2 k hk, Option.map_some]
      rfl
    intro row hrow
    rcases List.mem_append.1 hrow with hrow | hrow
    · obtain ⟨x, hx, rfl⟩ := List.mem_map.1 hrow
      have hf := find_mem _ hi'.sorted x hx
      exact ⟨c1 _ _ hf, shown _ _ (hi'.tasks _ _ hf)⟩
    · rw [List.mem_singleton] at hrow
      subst hrow
      exact ⟨c2, shown _ _ hi'.total⟩

end general

variable {N K : Type} [LinearOrder N] [Field K] [LinearOrder K] [IsStrictOrderedRing K]

/-- C219 (statistics): if runs are ended only when they were started and nothing is printed during a run, then the statistics shown in a row are
the minimum, the maximum, the mean and the standard deviation of the times shown in this row; in particular the root is taken of a number which is
not negative. Missing: runs that have not taken place are counted as runs which took no time, see `C219_runs_false`, and reports during a
run spoil later ones, see `C219_stale_false`. -/
theorem C219_statistics_partial (n : Nat) (hn : n ≠ 0) (big : K) (sqrt : K → K) (es : List (Event N K)) (hproper : Proper (es ++ [.print]))
    (s : Helper N K × List (List (Row N K))) (h : history big sqrt (Helper.new n, []) (es ++ [.print]) = .ok s) (rows : List (Row N K))
    (hrows : s.2.getLast? = some rows) (row : Row N K) (hrow : row ∈ rows) (ht : ∀ t ∈ row.times, 0 ≤ t ∧ t ≤ big) :
    ∃ x, row.stats = some x ∧ IsStatistics sqrt row.times x := by
  obtain ⟨m, hm, hs⟩ := history_snoc h
  obtain ⟨hi, hcur, -, -⟩ := history_inv es m hm
  have hprop : Proper es := by
    intro a b e' hab
    exact hproper a (b ++ [.print]) e' (by rw [hab]; simp)
  have hcur := (hcur hprop).2
  cases hs
  have hp : ∃ h', (m.1.print big sqrt) = (h', (h'.tasks.map fun x => printEntry (some x.1) x.2) ++ [printEntry none h'.runTimes]) ∧ Inv n es h' ∧
      AllCurrent big sqrt h' := by
    unfold Helper.print
    refine ⟨_, rfl, ?_⟩
    split
    · exact ⟨inv_update hi big sqrt, update_current big sqrt m.1⟩
    · rename_i hb
      exact ⟨hi, hcur (by simpa using hb)⟩
  obtain ⟨h', hpr, hi', c1, c2⟩ := hp
  rw [hpr] at hrows
  have shown : ∀ (name : Option N) (e : Entry K), Recorded n es name e.timings → Current big sqrt e →
      (∀ t ∈ (printEntry name e).times, 0 ≤ t ∧ t ≤ big) → ∃ x, (printEntry name e).stats = some x ∧ IsStatistics sqrt (printEntry name e).times x := by
    intro name e hr hc h0
    have hne : e.timings ≠ [] := by
      intro h0
      have := hr.1
      rw [h0] at this
      exact hn this.symm
    obtain ⟨x, hx, hx'⟩ := updateEntry_spec big sqrt e hne h0
    rw [hc] at hx
    exact ⟨x, hx, hx'⟩
  simp only [List.getLast?_append, List.getLast?_singleton, Option.some_or, Option.some.injEq] at hrows
  subst hrows
  rcases List.mem_append.1 hrow with hrow | hrow
  · obtain ⟨x, hx, rfl⟩ := List.mem_map.1 hrow
    have hf := find_mem _ hi'.sorted x hx
    exact shown _ _ (hi'.tasks _ _ hf) (c1 _ _ hf) ht
  · rw [List.mem_singleton] at hrow
    subst hrow
    exact shown _ _ hi'.total c2 ht

/-- Two runs with two tasks. -/
def benchmarkRuns : List (Event Nat Rat) :=
  [.startRun 1, .start 7 2, .stop 7 4, .start 3 4, .stop 3 5, .endRun 6, .startRun 7, .start 7 8, .stop 7 12, .endRun 13]

example : Allowed 2 benchmarkRuns ∧ ¬ Allowed 1 benchmarkRuns := by
  constructor
  · rw [← C219_defined 2 (1000 : Rat) id]
    exact ⟨_, rfl⟩
  · rw [← C219_defined 1 (1000 : Rat) id]
    rintro ⟨s, h⟩
    exact absurd h (by rintro ⟨⟩)

example : (history 1000 id (Helper.new 2, []) (benchmarkRuns ++ [.print])).map (fun s => s.2.getLast?) =
    .ok (some [⟨some 3, [1, 0], some ⟨0, 1, 1 / 2, 1 / 4⟩⟩, ⟨some 7, [2, 4], some ⟨2, 4, 3, 1⟩⟩, ⟨none, [5, 6], some ⟨5, 6, 11 / 2, 1 / 4⟩⟩]) := by
  decide +kernel

theorem proper_of_prefixes {N K : Type} (es : List (Event N K)) (h : ∀ k (hk : k < es.length),
    (match es[k] with | .print => inRun false (es.take k) = false | .endRun _ => inRun false (es.take k) = true | _ => True)) : Proper es := by
  intro a b e hab
  subst hab
  have := h a.length (by simp)
  rw [List.getElem_append_right (Nat.le_refl _)] at this
  simp only [Nat.sub_self, List.getElem_cons_zero, List.take_left'] at this
  cases e with
  | print => exact ⟨fun _ => this, by intro t h; cases h⟩
  | endRun t => exact ⟨fun h => (by cases h), fun _ _ => this⟩
  | _ => exact ⟨fun h => (by cases h), fun _ h => (by cases h)⟩

example : Proper (benchmarkRuns ++ [.print]) := by
  apply proper_of_prefixes
  intro k hk
  have : k < 11 := hk
  match k, this with
  | 0, _ | 1, _ | 2, _ | 3, _ | 4, _ | 5, _ | 6, _ | 7, _ | 8, _ | 9, _ | 10, _ => first | trivial | rfl

/-- C219 is false of the code for statistics after fewer runs than planned: the remaining runs are counted as runs that took no time. Here one of
two planned runs took 5 seconds; the reported minimum is 0 and the reported mean is 5/2. -/
theorem C219_runs_false : ∃ (es : List (Event Nat Rat)), completed es = 1 ∧
    (history 1000 id (Helper.new 2, []) (es ++ [.print])).map (fun s => s.2) = .ok [[⟨none, [5, 0], some ⟨0, 5, 5 / 2, 25 / 4⟩⟩]] :=
  ⟨[.startRun 1, .endRun 6], rfl, by decide +kernel⟩

/-- C219 is false of the code if a report is printed during a run: `end_run` does not tell that the statistics have to be computed again, so the
following report shows the time of the run together with statistics of the time before. Here a run took 5 seconds, and the maximum is said to
be 0. -/
theorem C219_stale_false : ∃ (es : List (Event Nat Rat)), completed es = 1 ∧
    ((history 1000 id (Helper.new 1, []) (es ++ [.print])).map fun s => s.2.getLast?) = .ok (some [⟨none, [5], some ⟨-1, 0, -1, 0⟩⟩]) :=
  ⟨[.startRun 1, .print, .endRun 6], rfl, by decide +kernel⟩

/-- C219 is false of the code for the detection of mistakes: after the last run, `end_run`, `start` and `end` write behind the end of the vectors
instead of throwing an exception as `start_run` does. -/
theorem C219_overrun_false (n : Nat) (big : Rat) (sqrt : Rat → Rat) (es : List (Event Nat Rat)) (s : Helper Nat Rat × List (List (Row Nat Rat)))
    (h : history big sqrt (Helper.new n, []) es = .ok s) (hc : n ≤ completed es) (name : Nat) (t : Rat) :
    s.1.endRun t = .error .undefined ∧ s.1.start name t = .error .undefined ∧ s.1.stop name t = .error .undefined := by
  obtain ⟨hi, -, -, -⟩ := history_inv es s h
  have out : ∀ x : List (Timing Rat), x.length ≤ n → x[s.1.run]? = none := by
    intro x hx
    rw [List.getElem?_eq_none_iff, hi.run]
    omega
  refine ⟨?_, ?_, ?_⟩
  · unfold Helper.endRun setStop
    rw [out _ hi.total.1.le]
    rfl
  · unfold Helper.start setStart
    dsimp only
    rw [out]
    · rfl
    · rcases hf : find name s.1.tasks with _ | e
      · simp [fresh, hi.max]
      · exact (hi.tasks name e hf).1.le
  · unfold Helper.stop setStop
    dsimp only
    rw [out]
    · rfl
    · rcases hf : find name s.1.tasks with _ | e
      · simp
      · exact (hi.tasks name e hf).1.le

example : ∃ s, history (1000 : Rat) id (Helper.new 1, []) ([.startRun 1, .endRun 2] : List (Event Nat Rat)) = .ok s ∧
    1 ≤ completed ([.startRun 1, .endRun 2] : List (Event Nat Rat)) := ⟨_, rfl, by decide⟩

end Verif
