import Verif.Proofs.Pattern

/-!
Properties C01, C02 (sparsity patterns), C51 (iterator equality).
-/
namespace Verif
open Pattern

/-- **C01.** After any history `h` of `add_link` calls (rows in range, columns different from the
64-bit marker value) no call fails, and for every estimate `epr` iterating over a row
yields each requested column exactly once and nothing else. -/
theorem C01_columns_are_the_links (rows epr : Nat) (h : List (Nat × Nat))
    (hh : ∀ x ∈ h, x.1 < rows ∧ x.2 < 2 ^ 64 - 1) :
    ∃ p, (Pat.new rows epr).addLinks h = some p ∧
      ∀ i, i < rows → ∃ l, p.columns i = some l ∧ l.Nodup ∧ ∀ j, j ∈ l ↔ (i, j) ∈ h := by
  obtain ⟨p, hp, hi⟩ := inv_addLinks h hh _ [] (inv_new rows epr)
  refine ⟨p, hp, ?_⟩
  intro i hir
  obtain ⟨cols, hc⟩ := hi.row i hir
  exact ⟨_, columns_eq hi hir hc, nodup_columns hi hc, fun j => by simpa using mem_columns hc j⟩

example : ∃ p, (Pat.new 2 1).addLinks [(0, 3), (0, 1), (1, 1), (0, 3)] = some p ∧
    p.columns 0 = some [3, 1] ∧ p.columns 1 = some [1] := by
  refine ⟨_, rfl, ?_, ?_⟩ <;> decide

/-- **C01 (nested).** The same for nested patterns of any shape and depth: after any history of
`add_link` calls with pairs of multi-indices addressing entries of the pattern, the leaf block at
`path` contains exactly the entries `(i,j)` whose multi-indices lead to that block and end in
`(i,j)`, each once. -/
theorem C01_nested_columns_are_the_links (sh : Shape) (h : List (List Nat × List Nat))
    (hv : ∀ x ∈ h, sh.Valid x.1 x.2) :
    ∃ t, (NPat.new sh).adds h = some t ∧
      ∀ path rows epr, sh.At path rows epr →
        ∃ p, t.sub path = some (.leaf p) ∧
          ∀ i, i < rows → ∃ l, p.columns i = some l ∧ l.Nodup ∧
            ∀ j, j ∈ l ↔ (path.map (·.1) ++ [i], path.map (·.2) ++ [j]) ∈ h := by
  obtain ⟨t, ht, hp⟩ := nested_main sh h hv
  refine ⟨t, ht, ?_⟩
  intro path rows epr hat
  obtain ⟨p, h1, h2⟩ := hp path rows epr hat
  refine ⟨p, h1, ?_⟩
  intro i hi
  obtain ⟨cols, hc⟩ := h2.row i hi
  refine ⟨_, columns_eq h2 hi hc, nodup_columns h2 hc, ?_⟩
  intro j
  rw [mem_columns hc j, List.mem_filterMap]
  have key : ∀ (path : List (Nat × Nat)) (r c : List Nat),
      leafLink path r c = some (i, j) ↔ r = path.map (·.1) ++ [i] ∧ c = path.map (·.2) ++ [j] := by
    intro path
    induction path with
    | nil =>
      intro r c
      match r, c with
      | [], _ => simp [leafLink]
      | [a], [] => simp [leafLink]
      | [a], [b] => simp [leafLink]
      | [a], _ :: _ :: _ => simp [leafLink]
      | _ :: _ :: _, c => simp [leafLink]
    | cons ab path ih =>
      obtain ⟨a, b⟩ := ab
      intro r c
      match r, c with
      | [], _ => simp [leafLink]
      | _ :: _, [] => simp [leafLink]
      | x :: r, y :: c =>
        simp only [leafLink, List.map_cons, List.cons_append, List.cons.injEq]
        split
        · rename_i hxy; rw [ih]; tauto
        · rename_i hxy; simp; tauto
  constructor
  · rintro ⟨⟨r, c⟩, hm, hx⟩
    obtain ⟨rfl, rfl⟩ := (key path r c).1 hx
    exact hm
  · intro hm
    exact ⟨_, hm, (key path _ _).2 ⟨rfl, rfl⟩⟩

example : ∀ x ∈ [([1, 0], [0, 2]), ([1, 1], [0, 2]), ([0, 0], [1, 4])],
    (Shape.node 2 2 fun _ _ => Shape.leaf 2 0).Valid x.1 x.2 := by
  simp [Shape.Valid, empty]

example : (Shape.node 2 2 fun _ _ => Shape.leaf 2 0).At [(1, 0)] 2 0 := by simp [Shape.At]

/-- **C02 (row sizes).** `sizes()` has one entry per row, the number of distinct columns requested
in that row, whatever the estimate. -/
theorem C02_sizes_count_distinct_columns (rows epr : Nat) (h : List (Nat × Nat))
    (hh : ∀ x ∈ h, x.1 < rows ∧ x.2 < 2 ^ 64 - 1) :
    ∃ p, (Pat.new rows epr).addLinks h = some p ∧
      p.sizes = (List.range rows).map fun i => (h.toFinset.filter fun x => x.1 = i).card := by
  obtain ⟨p, hp, hi⟩ := inv_addLinks h hh _ [] (inv_new rows epr)
  refine ⟨p, hp, ?_⟩
  apply List.ext_getElem?
  intro i
  by_cases hir : i < rows
  · obtain ⟨cols, hc⟩ := hi.row i hir
    rw [sizes_get hi hir hc]
    simp only [List.getElem?_map, List.getElem?_range hir, Option.map_some]
    congr 1
    rw [← List.toFinset_card_of_nodup (nodup_columns hi hc)]
    apply Finset.card_bij (fun j _ => (i, j))
    · intro j hj
      simpa using (mem_columns hc j).1 (List.mem_toFinset.1 hj)
    · intro a _ b _ hab; simpa using hab
    · rintro ⟨a, b⟩ hb
      simp at hb
      obtain ⟨hb, rfl⟩ := hb
      exact ⟨b, List.mem_toFinset.2 ((mem_columns hc b).2 (by simpa using hb)), rfl⟩
  · rw [List.getElem?_eq_none, List.getElem?_eq_none]
    · simpa using Nat.le_of_not_lt hir
    · unfold Pat.sizes; rw [sizesLoop_length, hi.hrows]; omega

/-- **C02 (overflow).** `overflowCount()` is the number of distinct links beyond the estimate,
summed over the rows. -/
theorem C02_overflowCount (rows epr : Nat) (h : List (Nat × Nat))
    (hh : ∀ x ∈ h, x.1 < rows ∧ x.2 < 2 ^ 64 - 1) :
    ∃ p, (Pat.new rows epr).addLinks h = some p ∧
      p.overflowCount = ∑ i ∈ Finset.range rows,
        ((h.toFinset.filter fun x => x.1 = i).card - epr) := by
  obtain ⟨p, hp, hi⟩ := inv_addLinks h hh _ [] (inv_new rows epr)
  obtain ⟨p', hp', hs⟩ := C02_sizes_count_distinct_columns rows epr h hh
  rw [hp] at hp'; simp at hp'; subst hp'
  refine ⟨p, hp, ?_⟩
  unfold Pat.overflowCount
  rw [ovCols_sum hi.ovRow]
  apply Finset.sum_congr rfl
  intro i hir
  simp at hir
  obtain ⟨cols, hc⟩ := hi.row i hir
  have h1 := sizes_get hi hir hc
  rw [hs] at h1
  simp only [List.getElem?_map, List.getElem?_range hir, Option.map_some, Option.some.injEq,
    List.length_append] at h1
  rw [h1]
  have h2 := hc.len
  rw [hi.hepr] at h2
  cases ho : ovCols p.overflow i with
  | nil => simp; omega
  | cons j js =>
    have : (i, j) ∈ p.overflow := (mem_ovCols _ _ _).1 (by simp [ho])
    have := (hc.ov j this).2
    rw [hi.hepr] at this
    simp; omega

example : ∃ p, (Pat.new 2 1).addLinks [(0, 3), (0, 1), (1, 1), (0, 3), (0, 0)] = some p ∧
    p.sizes = [3, 1] ∧ p.overflowCount = 2 := by
  refine ⟨_, rfl, ?_, ?_⟩ <;> decide

/-- **C51 is false of the code.** Equality of pattern iterators of one row is not symmetric and
identifies iterators that point to different columns: in a row with one slot and the columns 0
(slot) and 1 (overflow), the incremented iterator compares equal to `begin`, but not vice versa. -/
theorem C51_iterator_equality_false :
    ∃ p b x, (Pat.new 1 1).addLinks [(0, 0), (0, 1)] = some p ∧ p.begin 0 = some b ∧
      b.incr = some x ∧ x.equals b = true ∧ b.equals x = false ∧ x.deref ≠ b.deref := by
  refine ⟨_, _, _, rfl, rfl, rfl, ?_, ?_, ?_⟩ <;> decide

/-- **C51, guarded version.** Comparison with the end iterator, the only comparison the library
makes, is right: an iterator equals `end(i)` iff it has been exhausted, in either order. -/
theorem C51_iterator_equality_partial (x e : Iter) (hr : x.row = e.row) (he : e.atEnd = true) :
    x.equals e = x.atEnd ∧ e.equals x = x.atEnd := by
  simp [Iter.equals, hr, he]

example : ∃ b e, (Pat.new 1 1).begin 0 = some b ∧ (Pat.new 1 1).end' 0 = some e ∧
    b.row = e.row ∧ e.atEnd = true := ⟨_, _, rfl, rfl, rfl, rfl⟩

end Verif
