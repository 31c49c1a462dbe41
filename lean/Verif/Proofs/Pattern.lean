import Verif.Model.Pattern
import Verif.Spec.Pattern
import Verif.Proofs.ListAux
import Mathlib.Data.List.Nodup
import Mathlib.Data.Finset.Card
import Mathlib.Tactic.Linarith
import Mathlib.Algebra.BigOperators.Group.Finset.Piecewise

namespace Verif.Pattern

/-! ### The overflow set -/

theorem pairLt_iff (a b : Nat × Nat) : pairLt a b = true ↔ a.1 < b.1 ∨ (a.1 = b.1 ∧ a.2 < b.2) := by
  simp [pairLt]

theorem pairLt_trans {a b c : Nat × Nat} (h1 : pairLt a b) (h2 : pairLt b c) : pairLt a c := by
  rw [pairLt_iff] at *; omega

theorem pairLt_irrefl (a : Nat × Nat) : pairLt a a = false := by
  simp [pairLt]

def Sorted (l : List (Nat × Nat)) : Prop := l.Pairwise (fun a b => pairLt a b = true)

theorem mem_setInsert (x : Nat × Nat) (l : List (Nat × Nat)) (y : Nat × Nat) :
    y ∈ setInsert x l ↔ y = x ∨ y ∈ l := by
  induction l with
  | nil => simp [setInsert]
  | cons z zs ih =>
    simp only [setInsert]
    split
    · simp
    · split
      · simp [ih]; tauto
      · rename_i h1 h2
        have : x = z := by
          rw [pairLt_iff] at h1 h2
          ext <;> omega
        subst this; simp

theorem sorted_setInsert (x : Nat × Nat) (l : List (Nat × Nat)) (h : Sorted l) :
    Sorted (setInsert x l) := by
  induction l with
  | nil => simp [setInsert, Sorted]
  | cons z zs ih =>
    have hz := List.pairwise_cons.1 h
    simp only [setInsert]
    split
    · rename_i h1
      refine List.pairwise_cons.2 ⟨?_, h⟩
      intro a ha
      rcases List.mem_cons.1 ha with rfl | ha
      · exact h1
      · exact pairLt_trans h1 (hz.1 a ha)
    · split
      · rename_i h2
        refine List.pairwise_cons.2 ⟨?_, ih hz.2⟩
        intro a ha
        rcases (mem_setInsert x zs a).1 ha with rfl | ha
        · exact h2
        · exact hz.1 a ha
      · exact h

theorem Sorted.nodup {l : List (Nat × Nat)} (h : Sorted l) : l.Nodup := by
  refine List.Pairwise.imp ?_ h
  rintro a b hab rfl
  rw [pairLt_irrefl] at hab; simp at hab

/-- The row part of the overflow set. -/
def ovCols (l : List (Nat × Nat)) (i : Nat) : List Nat := (l.filter (fun x => x.1 == i)).map (·.2)

theorem mem_ovCols (l : List (Nat × Nat)) (i j : Nat) : j ∈ ovCols l i ↔ (i, j) ∈ l := by
  simp [ovCols]

theorem ovCols_nodup {l : List (Nat × Nat)} (h : l.Nodup) (i : Nat) : (ovCols l i).Nodup := by
  unfold ovCols
  refine List.Nodup.map_on ?_ (h.filter _)
  intro x hx y hy hxy
  simp at hx hy
  ext
  · omega
  · exact hxy

/-- Columns seen from the current position of a set iterator while the row stays the same. -/
def ovRun (i : Nat) : List (Nat × Nat) → List Nat
  | [] => []
  | y :: ys => if y.1 = i then y.2 :: ovRun i ys else []

theorem ovCols_of_gt {l : List (Nat × Nat)} {i : Nat} (h : ∀ x ∈ l, i < x.1) : ovCols l i = [] := by
  unfold ovCols
  rw [List.filter_eq_nil_iff.2]; rfl
  intro a ha; have := h a ha; simp; omega

theorem ovRun_eq {l : List (Nat × Nat)} (hs : Sorted l) {i : Nat} (h : ∀ x ∈ l, i ≤ x.1) :
    ovRun i l = ovCols l i := by
  induction l with
  | nil => rfl
  | cons y ys ih =>
    have hz := List.pairwise_cons.1 hs
    simp only [ovRun]
    split
    · rename_i hy
      rw [ih hz.2 (fun x hx => h x (List.mem_cons_of_mem _ hx))]
      simp [ovCols, hy]
    · rename_i hy
      have h0 := h y (by simp)
      rw [ovCols_of_gt]
      intro x hx
      rcases List.mem_cons.1 hx with rfl | hx
      · omega
      · have := hz.1 x hx
        rw [pairLt_iff] at this; omega

theorem lowerBound_spec {l : List (Nat × Nat)} (hs : Sorted l) (i : Nat) :
    Sorted (lowerBound (i, 0) l) ∧ (∀ x ∈ lowerBound (i, 0) l, i ≤ x.1) ∧
    ovCols (lowerBound (i, 0) l) i = ovCols l i ∧ (lowerBound (i, 0) l).length ≤ l.length := by
  induction l with
  | nil => simp [lowerBound, Sorted]
  | cons y ys ih =>
    have hz := List.pairwise_cons.1 hs
    simp only [lowerBound]
    split
    · rename_i hy
      obtain ⟨h1, h2, h3, h4⟩ := ih hz.2
      refine ⟨h1, h2, ?_, by simp; omega⟩
      rw [h3]
      rw [pairLt_iff] at hy
      simp at hy
      unfold ovCols
      rw [List.filter_cons_of_neg]
      simp; omega
    · rename_i hy
      refine ⟨hs, ?_, rfl, le_refl _⟩
      intro x hx
      rw [pairLt_iff] at hy
      simp at hy
      rcases List.mem_cons.1 hx with rfl | hx
      · exact hy
      · have := hz.1 x hx
        rw [pairLt_iff] at this; omega

/-! ### The slots -/

/-- Row layout: used columns first, then empty slots. -/
theorem findSlot_mem {cols : List Nat} {j : Nat} (hj : j ∈ cols) (hne : ∀ c ∈ cols, c ≠ empty)
    (m : Nat) : ∃ k, k < cols.length ∧ findSlot j (cols ++ List.replicate m empty) = some k ∧
      (cols ++ List.replicate m empty).set k j = cols ++ List.replicate m empty := by
  induction cols with
  | nil => simp at hj
  | cons c cs ih =>
    by_cases hc : c = j
    · exact ⟨0, by simp, by simp [findSlot, hc], by simp [hc]⟩
    · have hj' : j ∈ cs := by
        rcases List.mem_cons.1 hj with h | h
        · exact absurd h.symm hc
        · exact h
      obtain ⟨k, hk, h1, h2⟩ := ih hj' (fun c hc => hne c (List.mem_cons_of_mem _ hc))
      refine ⟨k + 1, by simpa using hk, ?_, ?_⟩
      · have := hne c (by simp)
        simp [findSlot, hc, this, h1]
      · simpa using h2

theorem findSlot_not_mem {cols : List Nat} {j : Nat} (hj : j ∉ cols) (hne : ∀ c ∈ cols, c ≠ empty)
    (m : Nat) : findSlot j (cols ++ List.replicate (m + 1) empty) = some cols.length := by
  induction cols with
  | nil => simp [findSlot, List.replicate_succ]
  | cons c cs ih =>
    have h1 : c ≠ j := fun h => hj (by simp [h])
    have h2 := hne c (by simp)
    have := ih (fun h => hj (List.mem_cons_of_mem _ h)) (fun c hc => hne c (List.mem_cons_of_mem _ hc))
    simp [findSlot, h1, h2, this]

theorem findSlot_full {cols : List Nat} {j : Nat} (hj : j ∉ cols) (hne : ∀ c ∈ cols, c ≠ empty) :
    findSlot j cols = none := by
  induction cols with
  | nil => rfl
  | cons c cs ih =>
    have h1 : c ≠ j := fun h => hj (by simp [h])
    have h2 := hne c (by simp)
    have := ih (fun h => hj (List.mem_cons_of_mem _ h)) (fun c hc => hne c (List.mem_cons_of_mem _ hc))
    simp [findSlot, h1, h2, this]

theorem set_append_replicate (cols : List Nat) (m j : Nat) :
    (cols ++ List.replicate (m + 1) empty).set cols.length j
      = (cols ++ [j]) ++ List.replicate m empty := by
  rw [List.set_append_right _ _ (le_refl _)]
  simp [List.replicate_succ]

theorem slots_set_self (p : Pat) (i k j : Nat) :
    ({ p with indices := p.indices.set (p.entriesPerRow * i + k) j } : Pat).slots i
      = (p.slots i).set k j := by
  simp only [Pat.slots]
  rw [List.drop_set]
  simp [List.take_set]

theorem slots_set_other (p : Pat) (i i' k j : Nat) (hk : k < p.entriesPerRow) (hi : i' ≠ i) :
    ({ p with indices := p.indices.set (p.entriesPerRow * i + k) j } : Pat).slots i'
      = p.slots i' := by
  simp only [Pat.slots]
  apply List.ext_getElem?
  intro n
  simp only [List.getElem?_take, List.getElem?_drop, List.getElem?_set]
  split
  · rename_i hn
    rw [if_neg]
    intro h
    rcases Nat.lt_or_gt_of_ne hi with h1 | h1
    · have : p.entriesPerRow * (i' + 1) ≤ p.entriesPerRow * i := Nat.mul_le_mul_left _ h1
      rw [Nat.mul_add] at this; omega
    · have : p.entriesPerRow * (i + 1) ≤ p.entriesPerRow * i' := Nat.mul_le_mul_left _ h1
      rw [Nat.mul_add] at this; omega
  · rfl

/-! ### The invariant -/

/-- What a row looks like after the links `h`. -/
structure RowInv (p : Pat) (h : List (Nat × Nat)) (i : Nat) (cols : List Nat) : Prop where
  len : cols.length ≤ p.entriesPerRow
  layout : p.slots i = cols ++ List.replicate (p.entriesPerRow - cols.length) empty
  nodup : cols.Nodup
  ne : ∀ c ∈ cols, c ≠ empty
  mem : ∀ j, (i, j) ∈ h ↔ (j ∈ cols ∨ (i, j) ∈ p.overflow)
  ov : ∀ j, (i, j) ∈ p.overflow → j ∉ cols ∧ cols.length = p.entriesPerRow

structure Inv (p : Pat) (rows epr : Nat) (h : List (Nat × Nat)) : Prop where
  hrows : p.rows = rows
  hepr : p.entriesPerRow = epr
  hlen : p.indices.length = rows * epr
  sorted : Sorted p.overflow
  ovRow : ∀ x ∈ p.overflow, x.1 < rows
  row : ∀ i, i < rows → ∃ cols, RowInv p h i cols

theorem inv_new (rows epr : Nat) : Inv (Pat.new rows epr) rows epr [] := by
  refine ⟨rfl, rfl, by simp [Pat.new], by simp [Pat.new, Sorted], by simp [Pat.new], ?_⟩
  intro i hi
  refine ⟨[], by simp, ?_, by simp, by simp, by simp [Pat.new], by simp [Pat.new]⟩
  have h1 : epr * (i + 1) ≤ rows * epr := by
    rw [Nat.mul_comm rows]; exact Nat.mul_le_mul_left _ hi
  rw [Nat.mul_add] at h1
  simp only [Pat.new, Pat.slots, List.drop_replicate, List.take_replicate, List.nil_append,
    List.length_nil]
  congr 1
  omega

theorem inv_addLink {p : Pat} {rows epr : Nat} {h : List (Nat × Nat)} (hp : Inv p rows epr h)
    {i j : Nat} (hi : i < rows) (hj : j < empty) :
    ∃ p', p.addLink i j = some p' ∧ Inv p' rows epr (h ++ [(i, j)]) := by
  obtain ⟨cols, hc⟩ := hp.row i hi
  have hjne : j ≠ empty := Nat.ne_of_lt hj
  have hrow : i < p.rows := by rw [hp.hrows]; exact hi
  by_cases hjc : j ∈ cols
  · -- already present
    obtain ⟨k, hk, hf, hset⟩ := findSlot_mem hjc hc.ne (p.entriesPerRow - cols.length)
    have hk' : k < p.entriesPerRow := lt_of_lt_of_le hk hc.len
    refine ⟨{ p with indices := p.indices.set (p.entriesPerRow * i + k) j }, ?_, ?_⟩
    · simp only [Pat.addLink, if_pos hrow, hc.layout, hf]
    · refine ⟨hp.hrows, hp.hepr, by simpa using hp.hlen, hp.sorted, hp.ovRow, ?_⟩
      intro i' hi'
      by_cases hii : i' = i
      · subst hii
        refine ⟨cols, hc.len, ?_, hc.nodup, hc.ne, ?_, hc.ov⟩
        · rw [slots_set_self, hc.layout, hset]
        · intro j'
          have := hc.mem j'
          simp only [List.mem_append, List.mem_singleton, Prod.mk.injEq, true_and]
          rw [this]
          constructor
          · rintro (h | rfl)
            · exact h
            · exact Or.inl hjc
          · exact Or.inl
      · obtain ⟨cols', hc'⟩ := hp.row i' hi'
        refine ⟨cols', hc'.len, ?_, hc'.nodup, hc'.ne, ?_, hc'.ov⟩
        · rw [slots_set_other _ _ _ _ _ hk' hii, hc'.layout]
        · intro j'; simp [hc'.mem j', hii]
  · by_cases hfull : cols.length = p.entriesPerRow
    · -- spill
      have hl : p.slots i = cols := by rw [hc.layout, hfull]; simp
      refine ⟨{ p with overflow := setInsert (i, j) p.overflow }, ?_, ?_⟩
      · simp only [Pat.addLink, if_pos hrow, hl, findSlot_full hjc hc.ne]
      · refine ⟨hp.hrows, hp.hepr, hp.hlen, sorted_setInsert _ _ hp.sorted, ?_, ?_⟩
        · intro x hx
          rcases (mem_setInsert _ _ _).1 hx with rfl | hx
          · exact hi
          · exact hp.ovRow x hx
        · intro i' hi'
          obtain ⟨cols', hc'⟩ := hp.row i' hi'
          by_cases hii : i' = i
          · subst hii
            refine ⟨cols, hc.len, hc.layout, hc.nodup, hc.ne, ?_, ?_⟩
            · intro j'
              simp only [List.mem_append, List.mem_singleton, mem_setInsert, hc.mem j']
              tauto
            · intro j' hj'
              rcases (mem_setInsert _ _ _).1 hj' with h | h
              · have : j' = j := by simpa using h
                subst this; exact ⟨hjc, hfull⟩
              · exact hc.ov j' h
          · refine ⟨cols', hc'.len, hc'.layout, hc'.nodup, hc'.ne, ?_, ?_⟩
            · intro j'
              simp [mem_setInsert, hc'.mem j', hii]
            · intro j' hj'
              rcases (mem_setInsert _ _ _).1 hj' with h | h
              · simp [hii] at h
              · exact hc'.ov j' h
    · -- free slot
      have hlt : cols.length < p.entriesPerRow := lt_of_le_of_ne hc.len hfull
      obtain ⟨m, hm⟩ : ∃ m, p.entriesPerRow - cols.length = m + 1 :=
        ⟨p.entriesPerRow - cols.length - 1, by omega⟩
      refine ⟨{ p with indices := p.indices.set (p.entriesPerRow * i + cols.length) j }, ?_, ?_⟩
      · simp only [Pat.addLink, if_pos hrow, hc.layout, hm, findSlot_not_mem hjc hc.ne]
      · refine ⟨hp.hrows, hp.hepr, by simpa using hp.hlen, hp.sorted, hp.ovRow, ?_⟩
        intro i' hi'
        by_cases hii : i' = i
        · subst hii
          refine ⟨cols ++ [j], ?_, ?_, ?_, ?_, ?_, ?_⟩
          · simp only [List.length_append, List.length_singleton]; omega
          · rw [slots_set_self, hc.layout, hm, set_append_replicate]
            congr 2
            simp only [List.length_append, List.length_singleton]; omega
          · rw [List.nodup_append]
            refine ⟨hc.nodup, by simp, ?_⟩
            intro a ha b hb
            simp at hb; subst hb
            rintro rfl; exact hjc ha
          · intro c hcm
            rcases List.mem_append.1 hcm with h | h
            · exact hc.ne c h
            · simp at h; subst h; exact hjne
          · intro j'
            simp only [List.mem_append, List.mem_singleton, hc.mem j', Prod.mk.injEq, true_and]
            tauto
          · intro j' hj'
            exact absurd (hc.ov j' hj').2 hfull
        · obtain ⟨cols', hc'⟩ := hp.row i' hi'
          refine ⟨cols', hc'.len, ?_, hc'.nodup, hc'.ne, ?_, hc'.ov⟩
          · rw [slots_set_other _ _ _ _ _ hlt hii, hc'.layout]
          · intro j'; simp [hc'.mem j', hii]

theorem inv_addLinks {rows epr : Nat} (h : List (Nat × Nat))
    (hh : ∀ x ∈ h, x.1 < rows ∧ x.2 < empty) (p : Pat) (h0 : List (Nat × Nat))
    (hp : Inv p rows epr h0) :
    ∃ p', p.addLinks h = some p' ∧ Inv p' rows epr (h0 ++ h) := by
  induction h generalizing p h0 with
  | nil => exact ⟨p, rfl, by simpa using hp⟩
  | cons x xs ih =>
    obtain ⟨i, j⟩ := x
    obtain ⟨h1, h2⟩ := hh (i, j) (by simp)
    obtain ⟨p1, e1, i1⟩ := inv_addLink hp h1 h2
    obtain ⟨p2, e2, i2⟩ := ih (fun x hx => hh x (List.mem_cons_of_mem _ hx)) p1 _ i1
    refine ⟨p2, ?_, by simpa using i2⟩
    simp [Pat.addLinks, e1, e2]

/-! ### Iteration -/

theorem traverse_overflow (l : List (Nat × Nat)) (i : Nat) (it : List Nat) (e : Iter)
    (her : e.row = i) (hea : e.atEnd = true) (f : Nat) (hf : l.length < f) (y : Nat × Nat)
    (hy : y.1 = i) :
    traverse (f + 1) ⟨i, true, false, it, y :: l⟩ e = some (y.2 :: ovRun i l) := by
  induction l generalizing f y with
  | nil =>
    obtain ⟨f, rfl⟩ : ∃ g, f = g + 1 := ⟨f - 1, by simp at hf; omega⟩
    simp [traverse, Iter.equals, her, hea, Iter.deref, Iter.incr, ovRun]
  | cons z zs ih =>
    simp at hf
    by_cases hz : z.1 = i
    · obtain ⟨g, rfl⟩ : ∃ g, f = g + 1 := ⟨f - 1, by omega⟩
      have := ih g (by omega) z hz
      rw [traverse]
      simp [Iter.equals, her, hea, Iter.deref, Iter.incr, hz, ovRun, this]
    · obtain ⟨g, rfl⟩ : ∃ g, f = g + 1 := ⟨f - 1, by omega⟩
      simp [traverse, Iter.equals, her, hea, Iter.deref, Iter.incr, ovRun, hz]

theorem traverse_slots (cols : List Nat) (hne : ∀ c ∈ cols, c ≠ empty) (c : Nat) (m i : Nat)
    (l : List (Nat × Nat)) (hl : ∀ x ∈ l, i ≤ x.1) (e : Iter)
    (her : e.row = i) (hea : e.atEnd = true) (f : Nat) (hf : cols.length + l.length + 1 ≤ f) :
    traverse (f + 1) ⟨i, false, false, c :: (cols ++ List.replicate m empty), l⟩ e
      = some (c :: (cols ++ ovRun i l)) := by
  induction cols generalizing f c with
  | nil =>
    obtain ⟨g, rfl⟩ : ∃ g, f = g + 1 := ⟨f - 1, by simp at hf; omega⟩
    have hd : slotsDone (List.replicate m empty) = true := by
      cases m <;> simp [slotsDone, List.replicate_succ]
    cases l with
    | nil =>
      simp [Iter.deref, Iter.incr, hd, traverse, Iter.equals, her, hea, ovRun]
    | cons y ys =>
      have := hl y (by simp)
      by_cases hy : y.1 = i
      · rw [traverse]
        have := traverse_overflow ys i (List.replicate m empty) e her hea g (by simp at hf; omega) y hy
        simp [Iter.equals, her, hea, Iter.deref, Iter.incr, hd, hy, this, ovRun]
      · have h2 : i < y.1 := by omega
        simp [Iter.deref, Iter.incr, hd, h2, traverse, Iter.equals, her, hea, ovRun, hy]
  | cons d ds ih =>
    obtain ⟨g, rfl⟩ : ∃ g, f = g + 1 := ⟨f - 1, by simp at hf; omega⟩
    have hd := hne d (by simp)
    have := ih (fun c hc => hne c (List.mem_cons_of_mem _ hc)) d g (by simp at hf; omega)
    rw [traverse]
    simp [Iter.equals, her, hea, Iter.deref, Iter.incr, slotsDone, hd, this]

theorem columns_eq {p : Pat} {rows epr : Nat} {h : List (Nat × Nat)} (hp : Inv p rows epr h)
    {i : Nat} (hi : i < rows) {cols : List Nat} (hc : RowInv p h i cols) :
    p.columns i = some (cols ++ ovCols p.overflow i) := by
  have hrow : i < p.rows := by rw [hp.hrows]; exact hi
  obtain ⟨h1, h2, h3, h4⟩ := lowerBound_spec hp.sorted i
  rw [← h3, ← ovRun_eq h1 h2]
  have hlen := hc.len
  simp only [Pat.columns, Pat.begin, Pat.end', Pat.mkIter, if_pos hrow, hc.layout]
  generalize lowerBound (i, 0) p.overflow = l at *
  cases cols with
  | nil =>
    have hd : slotsDone (List.replicate p.entriesPerRow empty) = true := by
      cases p.entriesPerRow <;> simp [slotsDone, List.replicate_succ]
    cases l with
    | nil => simp [hd, traverse, Iter.equals, ovRun]
    | cons y ys =>
      simp only [List.length_cons] at h4
      by_cases hy : y.1 = i
      · simp only [List.nil_append, List.length_nil, Nat.sub_zero, hd, hy]
        simp only [Bool.not_false, Bool.and_self, Bool.not_true, Bool.false_and, if_true,
          bne_self_eq_false, Option.bind_some, Bool.false_eq_true, if_false]
        rw [traverse_overflow ys i _ _ (by rfl) (by rfl) (p.entriesPerRow + p.overflow.length) (by omega) y hy]
        simp [ovRun, hy]
      · simp [hd, hy, traverse, Iter.equals, ovRun]
  | cons c cs =>
    have hcn := hc.ne c (by simp)
    simp at hlen
    have := traverse_slots cs (fun c hc' => hc.ne c (List.mem_cons_of_mem _ hc')) c
      (p.entriesPerRow - (c :: cs).length) i l h2
      ⟨i, false, true, (c :: cs) ++ List.replicate (p.entriesPerRow - (c :: cs).length) empty, l⟩
      rfl rfl (p.entriesPerRow + p.overflow.length) (by omega)
    simp [slotsDone, hcn] at this ⊢
    exact this

theorem mem_columns {p : Pat} {h : List (Nat × Nat)}
    {i : Nat} {cols : List Nat} (hc : RowInv p h i cols) (j : Nat) :
    j ∈ cols ++ ovCols p.overflow i ↔ (i, j) ∈ h := by
  rw [List.mem_append, mem_ovCols, hc.mem j]

theorem nodup_columns {p : Pat} {rows epr : Nat} {h : List (Nat × Nat)} (hp : Inv p rows epr h)
    {i : Nat} {cols : List Nat} (hc : RowInv p h i cols) :
    (cols ++ ovCols p.overflow i).Nodup := by
  rw [List.nodup_append]
  refine ⟨hc.nodup, ovCols_nodup hp.sorted.nodup i, ?_⟩
  intro a ha b hb
  rintro rfl
  exact (hc.ov a ((mem_ovCols _ _ _).1 hb)).1 ha

/-! ### Sizes -/

theorem countSlots_layout (cols : List Nat) (hne : ∀ c ∈ cols, c ≠ empty) (m : Nat) :
    countSlots (cols ++ List.replicate m empty) = cols.length := by
  induction cols with
  | nil => cases m <;> simp [countSlots, List.replicate_succ]
  | cons c cs ih =>
    have := hne c (by simp)
    simp [countSlots, this, ih (fun c hc => hne c (List.mem_cons_of_mem _ hc))]

theorem countOverflow_fst (i : Nat) (l : List (Nat × Nat)) : (countOverflow i l).1 = (ovRun i l).length := by
  induction l with
  | nil => rfl
  | cons y ys ih => by_cases hy : y.1 = i <;> simp [countOverflow, ovRun, hy, ih]

theorem countOverflow_snd {i : Nat} {l : List (Nat × Nat)} (hs : Sorted l) (h : ∀ x ∈ l, i ≤ x.1) :
    Sorted (countOverflow i l).2 ∧ (∀ x ∈ (countOverflow i l).2, i + 1 ≤ x.1) ∧
    ∀ i', i < i' → ovCols (countOverflow i l).2 i' = ovCols l i' := by
  induction l with
  | nil => simp [countOverflow, Sorted]
  | cons y ys ih =>
    have hz := List.pairwise_cons.1 hs
    by_cases hy : y.1 = i
    · obtain ⟨h1, h2, h3⟩ := ih hz.2 (fun x hx => h x (List.mem_cons_of_mem _ hx))
      simp only [countOverflow, hy, beq_self_eq_true, if_true]
      refine ⟨h1, h2, ?_⟩
      intro i' hi'
      rw [h3 i' hi']
      have : y.1 ≠ i' := by omega
      simp [ovCols, this]
    · have h0 := h y (by simp)
      simp only [countOverflow, beq_iff_eq, hy, if_false]
      refine ⟨hs, ?_, fun _ _ => by simp⟩
      intro x hx
      rcases List.mem_cons.1 hx with rfl | hx
      · omega
      · have := hz.1 x hx
        rw [pairLt_iff] at this; omega

theorem sizesLoop_length (epr : Nat) (n i : Nat) (it : List Nat) (oit : List (Nat × Nat)) :
    (sizesLoop epr n i it oit).length = n := by
  induction n generalizing i it oit with
  | zero => rfl
  | succ n ih => simp [sizesLoop, ih]

theorem sizesLoop_get (epr : Nat) (n i : Nat) (it : List Nat) (oit : List (Nat × Nat))
    (hs : Sorted oit) (h : ∀ x ∈ oit, i ≤ x.1) (k : Nat) (hk : k < n) :
    (sizesLoop epr n i it oit)[k]? =
      some (countSlots ((it.drop (epr * k)).take epr) + (ovCols oit (i + k)).length) := by
  induction n generalizing i it oit k with
  | zero => omega
  | succ n ih =>
    obtain ⟨h1, h2, h3⟩ := countOverflow_snd hs h
    cases k with
    | zero => simp [sizesLoop, countOverflow_fst, ovRun_eq hs h]
    | succ k =>
      simp only [sizesLoop, List.getElem?_cons_succ]
      rw [ih (i + 1) (it.drop epr) _ h1 h2 k (by omega), h3 _ (by omega)]
      rw [List.drop_drop, Nat.mul_add, Nat.mul_one, Nat.add_comm epr, Nat.add_assoc i 1 k, Nat.add_comm 1 k]

theorem sizes_get {p : Pat} {rows epr : Nat} {h : List (Nat × Nat)} (hp : Inv p rows epr h)
    {i : Nat} (hi : i < rows) {cols : List Nat} (hc : RowInv p h i cols) :
    p.sizes[i]? = some (cols ++ ovCols p.overflow i).length := by
  unfold Pat.sizes
  rw [sizesLoop_get _ _ _ _ _ hp.sorted (fun _ _ => Nat.zero_le _) i (by rw [hp.hrows]; exact hi)]
  have : (p.indices.drop (p.entriesPerRow * i)).take p.entriesPerRow = p.slots i := rfl
  rw [this, hc.layout, countSlots_layout cols hc.ne]
  simp

theorem ovCols_sum {l : List (Nat × Nat)} {rows : Nat} (h : ∀ x ∈ l, x.1 < rows) :
    l.length = ∑ i ∈ Finset.range rows, (ovCols l i).length := by
  induction l with
  | nil => simp [ovCols]
  | cons y ys ih =>
    have h0 := h y (by simp)
    have : ∀ i, (ovCols (y :: ys) i).length = (if y.1 = i then 1 else 0) + (ovCols ys i).length := by
      intro i
      by_cases hy : y.1 = i <;> simp [ovCols, hy]; omega
    simp only [this, Finset.sum_add_distrib]
    rw [← ih (fun x hx => h x (List.mem_cons_of_mem _ hx))]
    have h1 : ∑ i ∈ Finset.range rows, (if y.1 = i then 1 else 0) = 1 := by
      rw [Finset.sum_ite_eq]; simp [h0]
    rw [h1]; simp; omega

/-! ### Nested patterns -/

/-- The part of a history that goes to block `(i,j)`. -/
def restrict (i j : Nat) (h : List (List Nat × List Nat)) : List (List Nat × List Nat) :=
  h.filterMap fun x => match x.1, x.2 with
    | a :: ri, b :: ci => if a = i ∧ b = j then some (ri, ci) else none
    | _, _ => none

theorem mem_restrict (i j : Nat) (h : List (List Nat × List Nat)) (r c : List Nat) :
    (r, c) ∈ restrict i j h ↔ (i :: r, j :: c) ∈ h := by
  unfold restrict
  rw [List.mem_filterMap]
  constructor
  · rintro ⟨⟨a, b⟩, hm, hx⟩
    rcases a with _ | ⟨a, ri⟩
    · simp at hx
    · rcases b with _ | ⟨b, ci⟩
      · simp at hx
      · simp only at hx
        split at hx
        · rename_i hab
          obtain ⟨rfl, rfl⟩ := hab
          simp at hx
          obtain ⟨rfl, rfl⟩ := hx
          exact hm
        · simp at hx
  · intro hm
    exact ⟨_, hm, by simp⟩

theorem new_leaf_hist (h : List (List Nat × List Nat)) (rows epr : Nat)
    (hv : ∀ x ∈ h, Shape.Valid (.leaf rows epr) x.1 x.2) (p : Pat) (h0 : List (Nat × Nat))
    (hp : Inv p rows epr h0) :
    ∃ p', (NPat.leaf p).adds h = some (.leaf p') ∧
      Inv p' rows epr (h0 ++ h.filterMap fun x => leafLink [] x.1 x.2) := by
  induction h generalizing p h0 with
  | nil => exact ⟨p, rfl, by simpa using hp⟩
  | cons x xs ih =>
    obtain ⟨r, c⟩ := x
    have hx := hv (r, c) (by simp)
    match r, c, hx with
    | [i], [j], hx =>
      simp only [Shape.Valid] at hx
      obtain ⟨p1, e1, i1⟩ := inv_addLink hp hx.1 hx.2
      obtain ⟨p2, e2, i2⟩ := ih (fun x hx => hv x (List.mem_cons_of_mem _ hx)) p1 _ i1
      refine ⟨p2, ?_, by simpa [leafLink] using i2⟩
      simp [NPat.adds, NPat.add, e1, e2]

theorem node_hist (rows cols : Nat) (sub : Nat → Nat → Shape) (h : List (List Nat × List Nat))
    (hv : ∀ x ∈ h, Shape.Valid (.node rows cols sub) x.1 x.2) (subs : List NPat)
    (hlen : subs.length = rows * cols)
    (hsub : ∀ i j, i < rows → j < cols → ∀ s, subs[i * cols + j]? = some s →
      ∃ s', s.adds (restrict i j h) = some s') :
    ∃ subs', (NPat.node cols subs).adds h = some (.node cols subs') ∧ subs'.length = rows * cols ∧
      ∀ i j, i < rows → j < cols → ∃ s s', subs[i * cols + j]? = some s ∧
        subs'[i * cols + j]? = some s' ∧ s.adds (restrict i j h) = some s' := by
  induction h generalizing subs with
  | nil =>
    refine ⟨subs, rfl, hlen, ?_⟩
    intro i j hi hj
    have hlt : i * cols + j < subs.length := by
      rw [hlen]
      calc i * cols + j < i * cols + cols := by omega
        _ = (i + 1) * cols := by rw [Nat.add_mul]; omega
        _ ≤ rows * cols := Nat.mul_le_mul_right _ hi
    exact ⟨_, _, List.getElem?_eq_getElem hlt, List.getElem?_eq_getElem hlt, rfl⟩
  | cons x xs ih =>
    obtain ⟨r, c⟩ := x
    have hx := hv (r, c) (by simp)
    match r, c, hx with
    | a :: ri, b :: ci, hx =>
      simp only [Shape.Valid] at hx
      obtain ⟨ha, hb, hx⟩ := hx
      have hlt : ∀ i j, i < rows → j < cols → i * cols + j < subs.length := by
        intro i j hi hj
        rw [hlen]
        calc i * cols + j < i * cols + cols := by omega
          _ = (i + 1) * cols := by rw [Nat.add_mul]; omega
          _ ≤ rows * cols := Nat.mul_le_mul_right _ hi
      have hget := List.getElem?_eq_getElem (hlt a b ha hb)
      obtain ⟨s', hs'⟩ := hsub a b ha hb _ hget
      have hr : restrict a b ((a :: ri, b :: ci) :: xs) = (ri, ci) :: restrict a b xs := by
        simp [restrict]
      have hr' : ∀ i j, (i, j) ≠ (a, b) →
          restrict i j ((a :: ri, b :: ci) :: xs) = restrict i j xs := by
        intro i j hij
        unfold restrict
        rw [List.filterMap_cons_none]
        simp only
        rw [if_neg]
        rintro ⟨rfl, rfl⟩; exact hij rfl
      rw [hr] at hs'
      simp only [NPat.adds] at hs'
      obtain ⟨t, ht, hts'⟩ := Option.bind_eq_some_iff.1 hs'
      have hinj : ∀ i j, i < rows → j < cols → i * cols + j = a * cols + b → (i, j) = (a, b) := by
        intro i j hi hj he
        have h1 : (i * cols + j) / cols = i := by
          rw [Nat.mul_comm, Nat.mul_add_div (by omega), Nat.div_eq_of_lt hj]; omega
        have h2 : (a * cols + b) / cols = a := by
          rw [Nat.mul_comm, Nat.mul_add_div (by omega), Nat.div_eq_of_lt hb]; omega
        have : i = a := by rw [← h1, ← h2, he]
        subst this
        have : j = b := by omega
        rw [this]
      have hget' : ∀ i j, i < rows → j < cols →
          (subs.set (a * cols + b) t)[i * cols + j]? =
            if (i, j) = (a, b) then some t else subs[i * cols + j]? := by
        intro i j hi hj
        rw [List.getElem?_set]
        by_cases hij : (i, j) = (a, b)
        · simp only [Prod.mk.injEq] at hij
          obtain ⟨rfl, rfl⟩ := hij
          simp [hlt i j ha hb]
        · rw [if_neg (fun he => hij (hinj i j hi hj he.symm)), if_neg hij]
      obtain ⟨subs', e2, l2, g2⟩ := ih (fun x hx => hv x (List.mem_cons_of_mem _ hx))
        (subs.set (a * cols + b) t) (by simpa using hlen) (by
          intro i j hi hj s hs
          rw [hget' i j hi hj] at hs
          by_cases hij : (i, j) = (a, b)
          · rw [if_pos hij] at hs
            simp only [Prod.mk.injEq] at hij
            obtain ⟨rfl, rfl⟩ := hij
            simp at hs; subst hs
            exact ⟨s', hts'⟩
          · rw [if_neg hij] at hs
            have := hsub i j hi hj s hs
            rwa [hr' i j hij] at this)
      refine ⟨subs', ?_, l2, ?_⟩
      · simp only [NPat.adds, NPat.add, hget, ht, Option.map_some, Option.bind_some]
        exact e2
      · intro i j hi hj
        obtain ⟨s1, s2, q1, q2, q3⟩ := g2 i j hi hj
        rw [hget' i j hi hj] at q1
        by_cases hij : (i, j) = (a, b)
        · rw [if_pos hij] at q1
          simp only [Prod.mk.injEq] at hij
          obtain ⟨rfl, rfl⟩ := hij
          simp at q1; subst q1
          refine ⟨_, s2, hget, q2, ?_⟩
          rw [hr]; simp only [NPat.adds]
          rw [ht]; exact q3
        · rw [if_neg hij] at q1
          exact ⟨s1, s2, q1, q2, by rw [hr' i j hij]; exact q3⟩

theorem nested_main (sh : Shape) (h : List (List Nat × List Nat))
    (hv : ∀ x ∈ h, sh.Valid x.1 x.2) :
    ∃ t, (NPat.new sh).adds h = some t ∧
      ∀ (path : List (Nat × Nat)) (rows epr : Nat), sh.At path rows epr →
        ∃ p, t.sub path = some (.leaf p) ∧ Inv p rows epr
          (h.filterMap fun x => leafLink path x.1 x.2) := by
  induction sh generalizing h with
  | leaf rows epr =>
    obtain ⟨p', e, i⟩ := new_leaf_hist h rows epr hv (Pat.new rows epr) [] (inv_new rows epr)
    refine ⟨.leaf p', by simpa [NPat.new] using e, ?_⟩
    intro path r e' hat
    cases path with
    | nil =>
      simp only [Shape.At] at hat
      obtain ⟨rfl, rfl⟩ := hat
      refine ⟨p', rfl, ?_⟩
      simpa using i
    | cons a b => simp [Shape.At] at hat
  | node rows cols sub ih =>
    have hget : ∀ i j, i < rows → j < cols →
        ((List.range rows).flatMap fun i => (List.range cols).map fun j => NPat.new (sub i j))[i * cols + j]?
          = some (NPat.new (sub i j)) := by
      intro i j hi hj
      exact ListAux.getElem?_flatMap_range rows cols (fun i j => NPat.new (sub i j)) i j hi hj
    have hvr : ∀ i j, i < rows → j < cols → ∀ x ∈ restrict i j h, (sub i j).Valid x.1 x.2 := by
      intro i j hi hj x hx
      obtain ⟨r, c⟩ := x
      have := hv _ ((mem_restrict i j h r c).1 hx)
      simp only [Shape.Valid] at this
      exact this.2.2
    obtain ⟨subs', e, l, g⟩ := node_hist rows cols sub h hv
      ((List.range rows).flatMap fun i => (List.range cols).map fun j => NPat.new (sub i j))
      (ListAux.length_flatMap_range rows cols (fun i j => NPat.new (sub i j)))
      (by
        intro i j hi hj s hs
        rw [hget i j hi hj] at hs
        simp at hs; subst hs
        obtain ⟨t, ht, _⟩ := ih i j (restrict i j h) (hvr i j hi hj)
        exact ⟨t, ht⟩)
    refine ⟨.node cols subs', by simpa [NPat.new] using e, ?_⟩
    intro path r e' hat
    cases path with
    | nil => simp [Shape.At] at hat
    | cons ij path =>
      obtain ⟨i, j⟩ := ij
      simp only [Shape.At] at hat
      obtain ⟨hi, hj, hat⟩ := hat
      obtain ⟨s, s', q1, q2, q3⟩ := g i j hi hj
      rw [hget i j hi hj] at q1
      simp at q1; subst q1
      obtain ⟨t, ht, hp⟩ := ih i j (restrict i j h) (hvr i j hi hj)
      rw [ht] at q3
      simp at q3; subst q3
      obtain ⟨p, hp1, hp2⟩ := hp path r e' hat
      refine ⟨p, by simp [NPat.sub, q2, hp1], ?_⟩
      have : (restrict i j h).filterMap (fun x => leafLink path x.1 x.2)
          = h.filterMap (fun x => leafLink ((i, j) :: path) x.1 x.2) := by
        unfold restrict
        rw [List.filterMap_filterMap]
        congr 1
        funext x
        obtain ⟨r, c⟩ := x
        match r, c with
        | [], _ => simp [leafLink]
        | _ :: _, [] => simp [leafLink]
        | a :: ri, b :: ci =>
          simp only [leafLink]
          split <;> simp
      rw [← this]; exact hp2

end Verif.Pattern
