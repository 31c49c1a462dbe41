import Mathlib.Data.Nat.Basic
import Verif.Proofs.IstlAlloc
set_option linter.unusedSectionVars false
/-
Theorems about the access to elements of nested ISTL containers (C184), about clearing rows of matrices (C185) and about the matrices constructed from
patterns (C186).
-/
namespace Verif

open Istl

variable {K : Type} {n m d : Nat}

/-- **C184** (vectors). For any nesting and any block size, `operator[]` refers to exactly the number at the position given by the
multi-index, outermost index last: it has its value, and assigning to it changes this number and no other one. It is defined iff the vector has
this position. For blocks of size 1 the multi-index may or may not contain an index for the block. -/
theorem C184_vector (v : Vec K n d) (ci : List Nat) (h : if n = 1 then ci.length = d ∨ ci.length = d + 1 else ci.length = d + 1) :
    (v.at ci).map Ref.value = entryV d v (address n d ci) ∧
    ∀ r, v.at ci = some r → ∀ x p, entryV d (r.assign x) p = if p = address n d ci then some x else entryV d v p := by
  unfold Vec.at
  by_cases hn : n = 1
  · rw [if_pos hn] at h
    rcases h with h | h
    · have h' : ci.length = indexLength n d := by unfold indexLength; rw [if_pos hn, h]
      rw [start_eq h', ← addr_eq h']
      exact accessVector_refers ci v (by omega)
    · subst hn
      have e : (ci.length : Int) - 1 = (d : Nat) := by omega
      have e' : address 1 d ci = ((ci.drop 1).take d).reverse ++ [0] := by
        unfold address
        rw [if_pos rfl, List.take_of_length_le (l := ci.drop 1) (by simp; omega)]
        congr 1
        match ci with
        | [] => simp at h
        | a :: l =>
          simp only [List.length_cons] at h
          rw [List.reverse_cons, List.take_append_of_le_length (by simp; omega), List.take_of_length_le (by simp; omega)]
          rfl
      rw [e, e']
      exact accessVector_one ci v (by omega)
  · rw [if_neg hn] at h
    have h' : ci.length = indexLength n d := by unfold indexLength; rw [if_neg hn, h]
    rw [start_eq h', ← addr_eq h']
    exact accessVector_refers ci v (by omega)

/-- A multi-index of any other length is rejected. -/
theorem C184_vector_length (v : Vec K n d) (ci : List Nat) (h : if n = 1 then ci.length ≠ d ∧ ci.length ≠ d + 1 else ci.length ≠ d + 1) :
    v.at ci = none := by
  unfold Vec.at
  apply accessVector_none
  by_cases hn : n = 1
  · rw [if_pos hn] at h ⊢
    omega
  · rw [if_neg hn] at h ⊢
    omega

/-- Every number in a vector is reached by a multi-index. -/
theorem C184_vector_all (v : Vec K n d) (p : List Nat) (x : K) (h : entryV d v p = some x) :
    ∃ ci r, v.at ci = some r ∧ r.value = x ∧ address n d ci = p := by
  have hlen : ∀ (d : Nat) (v : Vec K n d) (p : List Nat), (entryV d v p).isSome = true →
      p.length = d + 1 ∧ (n = 1 → p = p.dropLast ++ [0]) := by
    intro d
    induction d with
    | zero =>
      intro v p hp
      match p with
      | [] => simp [entryV] at hp
      | _ :: _ :: _ => simp [entryV] at hp
      | [k] =>
        refine ⟨rfl, fun hn => ?_⟩
        unfold entryV at hp
        split at hp
        · rename_i hk
          rw [show k = 0 by omega]
          rfl
        · simp at hp
    | succ d ih =>
      intro v p hp
      match p with
      | [] => simp [entryV] at hp
      | k :: p =>
        unfold entryV at hp
        cases hc : v.blocks[k]? with
        | none => rw [hc] at hp; simp at hp
        | some c =>
          rw [hc, Option.bind_some] at hp
          obtain ⟨h1, h2⟩ := ih c p hp
          refine ⟨by simp [h1], fun hn => ?_⟩
          rw [dropLast_cons_ne _ (by rintro rfl; simp at h1), List.cons_append, ← h2 hn]
  obtain ⟨h1, h2⟩ := hlen d v p (by rw [h]; rfl)
  have key : ∀ ci : List Nat, (if n = 1 then ci.length = d ∨ ci.length = d + 1 else ci.length = d + 1) → address n d ci = p →
      ∃ ci r, v.at ci = some r ∧ r.value = x ∧ address n d ci = p := by
    intro ci hc ha
    have hv := (C184_vector v ci hc).1
    rw [ha, h] at hv
    obtain ⟨r, h3, h4⟩ := Option.map_eq_some_iff.1 hv
    exact ⟨ci, r, h3, h4, ha⟩
  by_cases hn : n = 1
  · refine key p.dropLast.reverse ?_ ?_
    · rw [if_pos hn]; left; simp [h1]
    · unfold address
      rw [if_pos hn, List.reverse_reverse, List.take_of_length_le (by simp [h1])]
      exact (h2 hn).symm
  · refine key p.reverse ?_ ?_
    · rw [if_neg hn]; simp [h1]
    · unfold address
      rw [if_neg hn, List.reverse_reverse]

/-- **C184** (matrices). `operator()` refers to exactly the number at the position given by the multi-indices for rows and columns, if it is in the pattern: it
has its value, and assigning to it changes this number and no other one, and does not change the pattern. -/
theorem C184_matrix_partial (a : Mat K n m d) (ri ci : List Nat) (hr : ri.length = if n = 1 then d else d + 1)
    (hc : ci.length = if m = 1 then d else d + 1) :
    (a.at ri ci).map Ref.value = entryM d a (address n d ri) (address m d ci) ∧
    ∀ r, a.at ri ci = some r → ∀ x p q,
      entryM d (r.assign x) p q = if p = address n d ri ∧ q = address m d ci then some x else entryM d a p q := by
  have h1 : ri.length = indexLength n d := hr
  have h2 : ci.length = indexLength m d := hc
  unfold Mat.at
  rw [start_eq h1, start_eq h2, ← addr_eq h1, ← addr_eq h2]
  exact accessMatrix_refers ri ci a (by omega) (by omega)

/-- Multi-indices of any other length are rejected. -/
theorem C184_matrix_length (a : Mat K n m d) (ri ci : List Nat)
    (h : ri.length ≠ (if n = 1 then d else d + 1) ∨ ci.length ≠ (if m = 1 then d else d + 1)) : a.at ri ci = none := by
  unfold Mat.at
  apply accessMatrix_none
  have h1 : start n d = ((if n = 1 then d else d + 1 : Nat) : Int) - 1 := by
    unfold start
    split <;> omega
  have h2 : start m d = ((if m = 1 then d else d + 1 : Nat) : Int) - 1 := by
    unfold start
    split <;> omega
  rcases h with h | h
  · left; rw [h1]; omega
  · right; rw [h2]; omega

/-- A vector with two outer blocks of two and one blocks of size 2. -/
def iaVec : Vec Nat 2 2 :=
  Vec.ofBlocks [Vec.ofBlocks [Vec.ofField fun k => 10 + k, Vec.ofField fun k => 20 + k], Vec.ofBlocks [Vec.ofField fun k => 30 + k]]

example : (iaVec.at [1, 0, 1]).map Ref.value = some 31 ∧ (iaVec.at [0, 1, 0]).map Ref.value = some 20 ∧
    (iaVec.at [0, 1, 1]).isNone = true ∧ (iaVec.at [1, 0]).isNone = true ∧
    ((iaVec.at [1, 0, 1]).map fun r => (entryV 2 (r.assign 7) [1, 0, 1], entryV 2 (r.assign 7) [1, 0, 0])) = some (some 7, some 30) := by
  decide +kernel

/-- A vector and a matrix with blocks of size 1. -/
def iaOne : Vec Nat 1 1 := Vec.ofBlocks [Vec.ofField fun _ => 4, Vec.ofField fun _ => 5]

def iaMat : Mat Nat 1 1 1 := Mat.ofRows [[(0, Mat.ofField fun _ _ => 1)], [(1, Mat.ofField fun _ _ => 2), (0, Mat.ofField fun _ _ => 3)]]

/-- In a power space with one component and blocks of fixed size, multi-indices have an index for the blocks of size 1. This is allowed in vectors, but
an assertion fails for the matrix of the same space. -/
theorem C184_size_one_false : (iaOne.at [0, 1]).map Ref.value = some 5 ∧ entryM 1 iaMat (address 1 1 [0, 1]) (address 1 1 [0, 0]) = some 3 ∧
    iaMat.at [0, 1] [0, 0] = none ∧ (iaMat.at [1] [0]).map Ref.value = some 3 :=
  ⟨by decide +kernel, by decide +kernel, C184_matrix_length _ _ _ (by decide), by decide +kernel⟩

/-- **C185**. `clear_row` of a matrix with square blocks sets all entries of the row to zero, in all blocks, and the diagonal entry to the value
given if it is in the pattern; no other entry changes, and the pattern does not change. -/
theorem C185_clear_row [Zero K] (a : Mat K n n d) (ri : List Nat) (diagonal : K) (hr : ri.length = if n = 1 then d else d + 1)
    (h : HasRow d a (address n d ri)) :
    ∃ a', a.clearRow ri diagonal = some a' ∧ ∀ p q, entryM d a' p q =
      (entryM d a p q).map fun x => if p = address n d ri then (if q = address n d ri then diagonal else 0) else x := by
  have h1 : ri.length = indexLength n d := hr
  rw [← addr_eq h1] at h ⊢
  obtain ⟨b, e1, e2, e3⟩ := clearMatrixRow_changes ri a (by omega) h
  obtain ⟨c, e4, e5, _⟩ := writeIfExists_changes diagonal ri b (by omega) (e3 _ h)
  refine ⟨c, ?_, ?_⟩
  · unfold Mat.clearRow
    rw [start_eq h1, e1]
    exact e4
  · intro p q
    rw [e5, e2, Option.map_map]
    congr 1
    funext x
    rw [Function.comp_apply]
    by_cases hp : p = addr n d ri <;> by_cases hq : q = addr n d ri <;> simp [hp, hq]

/-- **C185** (blocks). `clear_row_block` of a matrix with square blocks makes all rows of the row of blocks multiples of unit vectors: zero, except for the
diagonal entries in the pattern. No other entry changes. -/
theorem C185_clear_row_block [Zero K] (a : Mat K n n d) (ri : List Nat) (diagonal : K) (hr : ri.length = if n = 1 then d else d + 1)
    (h : HasRow d a (address n d ri)) :
    ∃ a', a.clearRowBlock ri diagonal = some a' ∧ ∀ p q, entryM d a' p q =
      (entryM d a p q).map fun x => if p.dropLast = (address n d ri).dropLast then (if q = p then diagonal else 0) else x := by
  have h1 : ri.length = indexLength n d := hr
  rw [← addr_eq h1] at h ⊢
  obtain ⟨b, e1, e2, e3⟩ := clearMatrixRowBlock_changes ri a (by omega) h
  obtain ⟨c, e4, e5, _⟩ := writeIfExistsToBlock_changes diagonal ri b (by omega) (e3 _ h)
  refine ⟨c, ?_, ?_⟩
  · unfold Mat.clearRowBlock
    rw [start_eq h1, e1]
    exact e4
  · intro p q
    rw [e5, e2, Option.map_map]
    congr 1
    funext x
    rw [Function.comp_apply]
    by_cases hp : p.dropLast = (addr n d ri).dropLast <;> by_cases hq : q = p <;> simp [hp, hq]

/-- A matrix with blocks of size 2. -/
def iaBlocks : Mat Int 2 2 1 :=
  Mat.ofRows [[(0, Mat.ofField fun _ _ => 1), (1, Mat.ofField fun _ _ => 2)], [(0, Mat.ofField fun _ _ => 3)]]

example : HasRow 1 iaBlocks (address 2 1 [1, 0]) ∧
    ((iaBlocks.clearRow [1, 0] 9).map fun a => ([[0, 0], [0, 1], [1, 0]].map fun p => [[0, 0], [0, 1], [1, 0], [1, 1]].map fun q => entryM 1 a p q)) =
      some [[some 1, some 1, some 2, some 2], [some 0, some 9, some 0, some 0], [some 3, some 3, none, none]] ∧
    ((iaBlocks.clearRowBlock [1, 0] 9).map fun a => ([[0, 0], [0, 1], [1, 0]].map fun p => [[0, 0], [0, 1], [1, 0], [1, 1]].map fun q => entryM 1 a p q)) =
      some [[some 9, some 0, some 0, some 0], [some 0, some 9, some 0, some 0], [some 3, some 3, none, none]] := by
  refine ⟨⟨_, rfl, ?_⟩, by decide +kernel, by decide +kernel⟩
  intro x _
  change 1 < 2
  omega

/-- Blocks that are not square: the rows cannot be cleared, even if they exist. -/
theorem C185_not_square [Zero K] (a : Mat K n m 0) (ri : List Nat) (diagonal : K) (h : n ≠ m) (h1 : n = 1 ∨ m = 1) :
    a.clearRow ri diagonal = none ∧ a.clearRowBlock ri diagonal = none := by
  constructor
  · unfold Mat.clearRow
    cases clearMatrixRow ri 0 a ((ri.length : Int) - 1) with
    | none => rfl
    | some b =>
      change writeIfExists diagonal ri ri 0 b _ _ = none
      unfold writeIfExists
      rcases h1 with h1 | h1
      · rw [if_pos h1, if_neg (by omega), if_neg (by omega)]
      · rw [if_neg (by omega), if_pos h1, if_neg (by omega)]
  · unfold Mat.clearRowBlock
    rcases h1 with h1 | h1
    · have : clearMatrixRowBlock ri 0 a ((ri.length : Int) - 1) = none := by
        unfold clearMatrixRowBlock
        rw [if_pos h1, if_neg (by omega)]
      rw [this]
      rfl
    · cases clearMatrixRowBlock ri 0 a ((ri.length : Int) - 1) with
      | none => rfl
      | some b =>
        change writeIfExistsToBlock diagonal ri ri 0 b _ _ = none
        unfold writeIfExistsToBlock
        rw [if_neg (by omega), if_pos h1]

open Pattern in
/-- **C186**. For any nesting, sizes, estimates and history of links: the matrix that is built from the pattern has an entry at a position iff
a link between the blocks was added, for all positions in the block; it has all rows; the statistics of each block of the matrix, row by row, are the numbers of different
links, of links in the longest row, of links beyond the estimate, the estimate and the number of rows. Indices in blocks of fixed size, which the multi-indices have for
block sizes other than 1, have no effect. -/
theorem C186_pattern (sh : Shape) (h : List (List Nat × List Nat)) (g : K) (hd : Depth d sh)
    (hv : ∀ x ∈ h, sh.Valid (x.1.take (d + 1)) (x.2.take (d + 1))) :
    ∃ t M, (NPat.new sh).adds h = some t ∧
      allocate (n := n) (m := m) g d sh t = some (M, statistics sh (h.map fun x => (x.1.take (d + 1), x.2.take (d + 1)))) ∧
      (∀ r c k l, r.length = d + 1 → c.length = d + 1 → k < n → l < m →
        ((entryM (d + 1) M (r ++ [k]) (c ++ [l])).isSome = true ↔ ∃ x ∈ h, x.1.take (d + 1) = r ∧ x.2.take (d + 1) = c)) ∧
      ∀ r k, k < n → IsRow sh r → HasRow (d + 1) M (r ++ [k]) := by
  have hv' : ∀ x ∈ h.map fun x => (x.1.take (d + 1), x.2.take (d + 1)), sh.Valid x.1 x.2 := by
    intro x hx
    obtain ⟨y, hy, rfl⟩ := List.mem_map.1 hx
    exact hv y hy
  obtain ⟨t, h1, h2⟩ := built_new sh _ hv'
  obtain ⟨M, h3, h4, h5⟩ := allocate_built (n := n) (m := m) g sh _ t hd hv' h2
  refine ⟨t, M, by rw [adds_take h _ (depth_new sh hd), h1], h3, ?_, h5⟩
  intro r c k l hr hc hk hl
  rw [h4 r c k l hr hc hk hl]
  constructor
  · intro hs
    split at hs
    · rename_i hm
      obtain ⟨y, hy, e⟩ := List.mem_map.1 hm
      simp only [Prod.mk.injEq] at e
      exact ⟨y, hy, e⟩
    · simp at hs
  · rintro ⟨y, hy, e1, e2⟩
    rw [if_pos (List.mem_map.2 ⟨y, hy, by rw [e1, e2]⟩)]
    rfl

open Pattern in
example : Depth 1 (.node 1 2 fun _ _ => .leaf 2 1) ∧
    (∀ x ∈ [([0, 1, 0], [1, 3, 1]), ([0, 1, 1], [1, 2, 0]), ([0, 1, 1], [1, 3, 0])],
      Shape.Valid (.node 1 2 fun _ _ => .leaf 2 1) (x.1.take 2) (x.2.take 2)) ∧
    (((NPat.new (.node 1 2 fun _ _ => .leaf 2 1)).adds [([0, 1, 0], [1, 3, 1]), ([0, 1, 1], [1, 2, 0]), ([0, 1, 1], [1, 3, 0])]).bind fun t =>
      (allocate (n := 2) (m := 2) (5 : Int) 1 (.node 1 2 fun _ _ => .leaf 2 1) t).map fun r =>
        (r.2, entryM 2 r.1 [0, 1, 0] [1, 3, 1], entryM 2 r.1 [0, 1, 0] [1, 1, 1])) =
      some ([⟨0, 0, 0, 1, 2⟩, ⟨2, 2, 1, 1, 2⟩], some 5, none) := by
  refine ⟨fun i _ j _ => trivial, ?_, by decide +kernel⟩
  intro x hx
  simp only [List.mem_cons, List.not_mem_nil, or_false] at hx
  rcases hx with rfl | rfl | rfl <;> simp [Shape.Valid, Pattern.empty]

end Verif
