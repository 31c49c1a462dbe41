import Verif.Proofs.HangingNode
import Mathlib.Algebra.Field.Rat
import Mathlib.Algebra.Order.Ring.Rat
/-
C44, C81, C82: hanging nodes.
-/
namespace Verif

open HangingNode HangingNode.Spec

section
variable {K : Type} [Field K]

/-! ### C44: weights of hanging nodes -/

/-- C44, negated for two dimensional grids: the code takes the dimension of the intersection for the one of the grid, so that no
intersection of any grid ever yields a constraint. -/
theorem C44_two_dim_false (e f : Side) :
    (skeleton (assembleQ1 (K := K)) 2 e f = some []) ∧ (skeleton (assembleP1 (K := K)) 2 e f = some []) := by
  constructor <;> simp [skeleton, skeletonWith, assembleQ1, assembleP1]

/-- A hanging node in a two dimensional grid, for which the code yields no constraint, but should. -/
example : let e : Side := ⟨4, fun c => if c = 2 then [0, 2] else [0], fun _ i => 10 + i, fun i => i == 2⟩
    let f : Side := ⟨4, fun c => if c = 2 then [1, 3] else [1], fun _ i => 20 + i, fun _ => false⟩
    skeleton (assembleQ1 (K := Rat)) 2 e f = some [] ∧
      skeletonWith (assembleQ1 (K := Rat)) 2 2 e f = some [(12, [(10, 1 / 2)])] := by
  decide +kernel

/-- C44, negated for three dimensional grids: whenever exactly one side has hanging nodes, the assertion on the number of vertices
fails. -/
theorem C44_three_dim_false (e f : Side) (he : (e.sub 2) ≠ []) (hang : Nat → Bool) (h : OneSided 3 hang e f) :
    (e.size = 8 → skeleton (assembleQ1 (K := K)) 3 e f = none) ∧ (e.size = 4 → skeleton (assembleP1 (K := K)) 3 e f = none) := by
  have hne : (e.sub 2).isEmpty = false := by
    cases hs : e.sub 2
    · exact absurd hs he
    · rfl
  constructor <;> intro hsize
  · rw [skeleton, (skeletonWith_fine _ 3 (3 - 1) hang e f h).1]
    simp [assembleQ1, hne, hsize]
  · rw [skeleton, (skeletonWith_fine _ 3 (3 - 1) hang e f h).1]
    simp [assembleP1, hne, hsize]

/-- A face of a cube with one hanging node and the face opposite to it. -/
def HangingNode.fineCube : Side :=
  ⟨8, fun c => if c = 3 then [0, 1, 2, 3] else if c = 2 then [0, 1, 2, 3] else [0], fun _ i => 10 + i, fun i => i == 3⟩
def HangingNode.coarseCube : Side :=
  ⟨8, fun c => if c = 3 then [4, 5, 6, 7] else if c = 2 then [4, 5, 6, 7] else [0], fun _ i => 20 + i, fun _ => false⟩

example : OneSided 3 (fun v => v == 13) fineCube coarseCube ∧ fineCube.sub 2 ≠ [] ∧ fineCube.size = 8 :=
  ⟨⟨by unfold Consistent; decide, by decide, by decide, by decide⟩, by decide, rfl⟩

variable [CharZero K]

/-- C44, for the intended dimension, cubes in three dimensions, with any numbering, number and order of the intersections. A hanging node
in the middle of an edge from `A` to `B` (in every face containing it some adjacent corner is not hanging and every such corner is `A` or
`B`; `A` and `B` both occur) interpolates `A` and `B` with the weights 1/2. A hanging node in the middle of a face (all adjacent corners
are hanging, and the opposite ones are `S`) interpolates the four corners of the face with the weights 1/4. -/
theorem C44_cube_partial (hang : Nat → Bool) (faces : List (Side × Side × Bool))
    (hf : ∀ p ∈ faces, OneSided 3 hang p.1 p.2.1 ∧ p.1.size = 8 ∧ (p.1.sub 3).length = 4) :
    ∃ cg : Constraints.Trafo Nat K, constraintsOf assembleQ1 3 3 faces = some cg ∧
      (∀ v A B, hang v = true → A ≠ B →
        (∀ p ∈ faces, v ∈ corners 3 p.1 → (∃ n, Adjacent (corners 3 p.1) v n ∧ hang n = false) ∧
          ∀ n, Adjacent (corners 3 p.1) v n → hang n = false → n = A ∨ n = B) →
        (∃ p ∈ faces, v ∈ corners 3 p.1 ∧ ∀ n, Adjacent (corners 3 p.1) v n → hang n = false → n = A) →
        (∃ p ∈ faces, v ∈ corners 3 p.1 ∧ ∀ n, Adjacent (corners 3 p.1) v n → hang n = false → n = B) →
        Interpolates cg v [A, B] (1 / 2)) ∧
      (∀ v S, hang v = true → S.Nodup → S.length = 4 →
        (∀ p ∈ faces, v ∈ corners 3 p.1 → (∀ n, Adjacent (corners 3 p.1) v n → hang n = true) ∧
          ∀ n, Opposite (corners 3 p.1) v n → n ∈ S) →
        (∀ s ∈ S, ∃ p ∈ faces, v ∈ corners 3 p.1 ∧ ∀ n, Opposite (corners 3 p.1) v n → n = s) →
        Interpolates cg v S (1 / 4)) ∧
      (∀ v, (∃ row, (v, row) ∈ cg.rows) → hang v = true) := by
  obtain ⟨rs, hrs, hr1, hr2⟩ := constraintsOf_eq (K := K) assembleQ1 3 hang faces
    (fun s rows => (∀ v row, (v, row) ∈ rows → hang v = true ∧ v ∈ corners 3 s ∧ ∃ t w, row = [(t, w)] ∧
        ((w = 1 / 4 ∧ Opposite (corners 3 s) v t ∧ ∀ n, Adjacent (corners 3 s) v n → hang n = true) ∨
         (w = 1 / 2 ∧ Adjacent (corners 3 s) v t ∧ hang t = false))) ∧
      ∀ v ∈ corners 3 s, hang v = true → ∃ row, (v, row) ∈ rows)
    (fun p hp => ⟨(hf p hp).1, rowsQ1 hang p.1 (hf p hp).1.consistent (hf p hp).1.nodup (hf p hp).2.1 (hf p hp).2.2⟩)
  refine ⟨_, hrs, ?_, ?_, ?_⟩
  · intro v A B hv hAB hall hA hB
    have hcase : ∀ X, (∃ p ∈ faces, v ∈ corners 3 p.1 ∧ ∀ n, Adjacent (corners 3 p.1) v n → hang n = false → n = X) →
        ∃ r ∈ rs, ∃ row, (v, row) ∈ r ∧ ∃ x : K, (X, x) ∈ row := by
      rintro X ⟨p, hp, hvp, hX⟩
      obtain ⟨r, hr, hin, hex⟩ := hr2 p hp
      obtain ⟨row, hrow⟩ := hex v hvp hv
      obtain ⟨-, -, t, w, hrw, h⟩ := hin v row hrow
      rcases h with ⟨-, -, hh⟩ | ⟨-, hadj, hh⟩
      · obtain ⟨n, hn, hn'⟩ := (hall p hp hvp).1
        rw [hh n hn] at hn'
        cases hn'
      · exact ⟨r, hr, row, hrow, w, by rw [hrw, hX t hadj hh]; simp⟩
    refine interpolates_of rs v [A, B] (by simpa using hAB) 2 (by simp) rfl _ (by norm_num) ?_ ?_
    · intro r hr row hrow
      obtain ⟨p, hp, hin, -⟩ := hr1 r hr
      obtain ⟨-, hvp, t, w, hrw, h⟩ := hin v row hrow
      subst hrw
      refine ⟨by simp, ?_⟩
      intro e he
      obtain rfl := List.mem_singleton.1 he
      rcases h with ⟨-, -, hh⟩ | ⟨hw, hadj, hh⟩
      · obtain ⟨n, hn, hn'⟩ := (hall p hp hvp).1
        rw [hh n hn] at hn'
        cases hn'
      · have := (hall p hp hvp).2 t hadj hh
        exact ⟨by simpa using this, hw⟩
    · intro s hs
      simp only [List.mem_cons, List.not_mem_nil, or_false] at hs
      rcases hs with rfl | rfl
      · exact hcase _ hA
      · exact hcase _ hB
  · intro v S hv hS hlen hall hex
    refine interpolates_of rs v S hS 4 (by simp) hlen _ (by norm_num) ?_ ?_
    · intro r hr row hrow
      obtain ⟨p, hp, hin, -⟩ := hr1 r hr
      obtain ⟨-, hvp, t, w, hrw, h⟩ := hin v row hrow
      subst hrw
      refine ⟨by simp, ?_⟩
      intro e he
      obtain rfl := List.mem_singleton.1 he
      rcases h with ⟨hw, hopp, -⟩ | ⟨-, hadj, hh⟩
      · exact ⟨(hall p hp hvp).2 t hopp, hw⟩
      · rw [(hall p hp hvp).1 t hadj] at hh
        cases hh
    · intro s hs
      obtain ⟨p, hp, hvp, hX⟩ := hex s hs
      obtain ⟨r, hr, hin, hx⟩ := hr2 p hp
      obtain ⟨row, hrow⟩ := hx v hvp hv
      obtain ⟨-, -, t, w, hrw, h⟩ := hin v row hrow
      rcases h with ⟨-, hopp, -⟩ | ⟨-, hadj, hh⟩
      · exact ⟨r, hr, row, hrow, w, by rw [hrw, hX t hopp]; simp⟩
      · rw [(hall p hp hvp).1 t hadj] at hh
        cases hh
  · rintro v ⟨row, hrow⟩
    obtain ⟨r, hr, row', hrow'⟩ := mem_collect rs v row hrow
    obtain ⟨p, hp, hin, -⟩ := hr1 r hr
    exact (hin v row' hrow').1

/-- The four small squares (1 2 / 4 5 ...) of a face of a coarse cube with the corners 1, 3, 7, 9, the middles 2, 4, 6, 8 of its edges and
its centre 5; each square is a face of a fine cube. The middles of the edges and the centre are hanging. -/
def HangingNode.square (q : List Nat) : Side × Side × Bool :=
  (⟨8, fun _ => [0, 1, 2, 3], fun _ i => q.getD i 0, fun i => [2, 4, 5, 6, 8].contains (q.getD i 0)⟩, coarseCube, true)

def HangingNode.squares : List (Side × Side × Bool) := [square [1, 2, 4, 5], square [2, 3, 5, 6], square [4, 5, 7, 8], square [5, 6, 8, 9]]

example : ∀ p ∈ squares, OneSided 3 [2, 4, 5, 6, 8].contains p.1 p.2.1 ∧ p.1.size = 8 ∧ (p.1.sub 3).length = 4 := by
  simp only [squares, List.forall_mem_cons, List.not_mem_nil, false_imp_iff, implies_true, and_true]
  refine ⟨⟨⟨?_, by decide, by decide, by decide⟩, rfl, rfl⟩, ⟨⟨?_, by decide, by decide, by decide⟩, rfl, rfl⟩,
    ⟨⟨?_, by decide, by decide, by decide⟩, rfl, rfl⟩, ⟨⟨?_, by decide, by decide, by decide⟩, rfl, rfl⟩⟩ <;>
    (unfold Consistent; decide)

example : (constraintsOf (assembleQ1 (K := Rat)) 3 3 squares).map (fun cg => (cg.rows.map fun r => (r.1, r.2))) =
    some [(2, [(1, 1 / 2), (3, 1 / 2)]), (4, [(1, 1 / 2), (7, 1 / 2)]), (5, [(1, 1 / 4), (3, 1 / 4), (7, 1 / 4), (9, 1 / 4)]),
      (6, [(3, 1 / 2), (9, 1 / 2)]), (8, [(7, 1 / 2), (9, 1 / 2)])] := by
  decide +kernel

/-- C44, for the intended dimension, in two dimensions, for quadrilaterals and triangles: a hanging node in the middle of the edge from
`A` to `B` interpolates them with the weights 1/2. -/
theorem C44_edge_partial (hang : Nat → Bool) (faces : List (Side × Side × Bool)) (cube : Bool)
    (hf : ∀ p ∈ faces, OneSided 2 hang p.1 p.2.1 ∧ p.1.size = (if cube then 4 else 3) ∧ (p.1.sub 2).length = 2 ∧
      ∃ t ∈ corners 2 p.1, hang t = false) :
    ∃ cg : Constraints.Trafo Nat K, constraintsOf (if cube then assembleQ1 else assembleP1) 2 2 faces = some cg ∧
      (∀ v A B, hang v = true → A ≠ B → (∀ p ∈ faces, v ∈ corners 2 p.1 → ∀ t ∈ corners 2 p.1, t = v ∨ t = A ∨ t = B) →
        (∃ p ∈ faces, v ∈ corners 2 p.1 ∧ A ∈ corners 2 p.1) → (∃ p ∈ faces, v ∈ corners 2 p.1 ∧ B ∈ corners 2 p.1) →
        hang A = false → hang B = false → Interpolates cg v [A, B] (1 / 2)) ∧
      (∀ v, (∃ row, (v, row) ∈ cg.rows) → hang v = true) := by
  obtain ⟨rs, hrs, hr1, hr2⟩ := constraintsOf_eq (K := K) (if cube then assembleQ1 else assembleP1) 2 hang faces
    (fun s rows => ∃ a b, a ≠ b ∧ corners 2 s = [a, b] ∧ ¬ (hang a = true ∧ hang b = true) ∧
      rows = (if hang a then [(a, [(b, 1 / 2)])] else []) ++ (if hang b then [(b, [(a, 1 / 2)])] else []))
    (by
      intro p hp
      obtain ⟨h1, h2, h3, t, ht, hht⟩ := hf p hp
      have hlen : (corners 2 p.1).length = 2 := by simp [corners, h3]
      match hc : corners 2 p.1, hlen with
      | [a, b], _ =>
        have hone : ¬ (hang a = true ∧ hang b = true) := by
          rintro ⟨ha, hb⟩
          rw [hc] at ht
          simp only [List.mem_cons, List.not_mem_nil, or_false] at ht
          rcases ht with rfl | rfl
          · rw [ha] at hht; cases hht
          · rw [hb] at hht; cases hht
        have hab : a ≠ b := by
          have := h1.nodup
          rw [hc] at this
          simpa using this
        refine ⟨h1, _, ?_, a, b, hab, rfl, hone, rfl⟩
        cases cube
        · exact rowsEdgeP1 hang p.1 h1.consistent a b hc hone h2
        · exact rowsEdgeQ1 hang p.1 h1.consistent a b hc hone h2)
  have hrow : ∀ r ∈ rs, ∀ v row, (v, row) ∈ r → hang v = true ∧ ∃ p ∈ faces, v ∈ corners 2 p.1 ∧
      ∃ t ∈ corners 2 p.1, t ≠ v ∧ row = [(t, 1 / 2)] := by
    intro r hr v row hm
    obtain ⟨p, hp, a, b, hab, hc, hone, rfl⟩ := hr1 r hr
    cases ha : hang a <;> cases hb : hang b
    · simp [ha, hb] at hm
    · simp only [ha, hb, Bool.false_eq_true, if_false, if_true, List.nil_append, List.mem_singleton, Prod.mk.injEq] at hm
      obtain ⟨rfl, rfl⟩ := hm
      exact ⟨hb, p, hp, by simp [hc], a, by simp [hc], hab, rfl⟩
    · simp only [ha, hb, Bool.false_eq_true, if_false, if_true, List.append_nil, List.mem_singleton, Prod.mk.injEq] at hm
      obtain ⟨rfl, rfl⟩ := hm
      exact ⟨ha, p, hp, by simp [hc], b, by simp [hc], Ne.symm hab, rfl⟩
    · exact absurd ⟨ha, hb⟩ hone
  refine ⟨_, hrs, ?_, ?_⟩
  · intro v A B hv hAB hall hA hB hhA hhB
    have hcase : ∀ X, hang X = false → (∃ p ∈ faces, v ∈ corners 2 p.1 ∧ X ∈ corners 2 p.1) →
        ∃ r ∈ rs, ∃ row, (v, row) ∈ r ∧ ∃ x : K, (X, x) ∈ row := by
      rintro X hX ⟨p, hp, hvp, hXp⟩
      obtain ⟨r, hr, a, b, hab, hc, hone, rfl⟩ := hr2 p hp
      rw [hc] at hvp hXp
      simp only [List.mem_cons, List.not_mem_nil, or_false] at hvp hXp
      refine ⟨_, hr, [(X, 1 / 2)], ?_, 1 / 2, by simp⟩
      rcases hvp with rfl | rfl <;> rcases hXp with rfl | rfl
      · rw [hv] at hX; cases hX
      · simp [hv, hX]
      · simp [hv, hX]
      · rw [hv] at hX; cases hX
    refine interpolates_of rs v [A, B] (by simpa using hAB) 2 (by simp) rfl _ (by norm_num) ?_ ?_
    · intro r hr row hm
      obtain ⟨-, p, hp, hvp, t, ht, htv, rfl⟩ := hrow r hr v row hm
      refine ⟨by simp, ?_⟩
      intro e he
      obtain rfl := List.mem_singleton.1 he
      exact ⟨by simpa using (hall p hp hvp t ht).resolve_left htv, rfl⟩
    · intro s hs
      simp only [List.mem_cons, List.not_mem_nil, or_false] at hs
      rcases hs with rfl | rfl
      · exact hcase _ hhA hA
      · exact hcase _ hhB hB
  · rintro v ⟨row, hm⟩
    obtain ⟨r, hr, row', hm'⟩ := mem_collect rs v row hm
    exact (hrow r hr v row' hm').1

/-- Two fine edges (1 2) and (2 3) of a coarse edge. -/
def HangingNode.edges (n : Nat) : List (Side × Side × Bool) :=
  [(⟨n, fun _ => [0, 1], fun _ i => [1, 2].getD i 0, fun i => i == 1⟩, ⟨n, fun _ => [0, 1], fun _ i => [1, 3].getD i 0, fun _ => false⟩, true),
   (⟨n, fun _ => [0, 1], fun _ i => [2, 3].getD i 0, fun i => i == 0⟩, ⟨n, fun _ => [0, 1], fun _ i => [1, 3].getD i 0, fun _ => false⟩, false)]

example : ∀ p ∈ edges 4, OneSided 2 (fun v => v == 2) p.1 p.2.1 ∧ p.1.size = (if true then 4 else 3) ∧ (p.1.sub 2).length = 2 ∧
      ∃ t ∈ corners 2 p.1, (fun v => v == 2) t = false := by
  simp only [edges, List.forall_mem_cons, List.not_mem_nil, false_imp_iff, implies_true, and_true]
  refine ⟨⟨⟨?_, by decide, by decide, by decide⟩, rfl, rfl, by decide⟩, ⟨⟨?_, by decide, by decide, by decide⟩, rfl, rfl, by decide⟩⟩ <;>
    (unfold Consistent; decide)

example : (constraintsOf (assembleP1 (K := Rat)) 2 2 (edges 3)).map (fun cg => cg.rows) = some [(2, [(1, 1 / 2), (3, 1 / 2)])] := by
  decide +kernel

/-- C44, for the intended dimension, tetrahedra in three dimensions: a hanging node in the middle of the edge from `A` to `B` (the
corners that are not hanging, of the faces containing it, are `A` and `B`) interpolates them with the weights 1/2. -/
theorem C44_tetrahedron_partial (hang : Nat → Bool) (faces : List (Side × Side × Bool))
    (hf : ∀ p ∈ faces, OneSided 3 hang p.1 p.2.1 ∧ p.1.size = 4 ∧ (p.1.sub 3).length = 3) :
    ∃ cg : Constraints.Trafo Nat K, constraintsOf assembleP1 3 3 faces = some cg ∧
      (∀ v A B, hang v = true → A ≠ B → hang A = false → hang B = false →
        (∀ p ∈ faces, v ∈ corners 3 p.1 → ∀ t ∈ corners 3 p.1, hang t = false → t = A ∨ t = B) →
        (∃ p ∈ faces, v ∈ corners 3 p.1 ∧ A ∈ corners 3 p.1) → (∃ p ∈ faces, v ∈ corners 3 p.1 ∧ B ∈ corners 3 p.1) →
        Interpolates cg v [A, B] (1 / 2)) ∧
      (∀ v, (∃ row, (v, row) ∈ cg.rows) → hang v = true) := by
  obtain ⟨rs, hrs, hr1, hr2⟩ := constraintsOf_eq (K := K) assembleP1 3 hang faces
    (fun s rows => (∀ v row, (v, row) ∈ rows → hang v = true ∧ v ∈ corners 3 s ∧ row ≠ [] ∧
        ∀ e ∈ row, e.1 ∈ corners 3 s ∧ hang e.1 = false ∧ e.2 = 1 / 2) ∧
      ∀ v ∈ corners 3 s, hang v = true → ∀ t ∈ corners 3 s, hang t = false → ∃ row, (v, row) ∈ rows ∧ (t, 1 / 2) ∈ row)
    (fun p hp => ⟨(hf p hp).1, rowsP1 hang p.1 (hf p hp).1.consistent (hf p hp).1.nodup (hf p hp).2.1 (hf p hp).2.2⟩)
  refine ⟨_, hrs, ?_, ?_⟩
  · intro v A B hv hAB hhA hhB hall hA hB
    have hcase : ∀ X, hang X = false → (∃ p ∈ faces, v ∈ corners 3 p.1 ∧ X ∈ corners 3 p.1) →
        ∃ r ∈ rs, ∃ row, (v, row) ∈ r ∧ ∃ x : K, (X, x) ∈ row := by
      rintro X hX ⟨p, hp, hvp, hXp⟩
      obtain ⟨r, hr, -, hex⟩ := hr2 p hp
      obtain ⟨row, hrow, hm⟩ := hex v hvp hv X hXp hX
      exact ⟨r, hr, row, hrow, _, hm⟩
    refine interpolates_of rs v [A, B] (by simpa using hAB) 2 (by simp) rfl _ (by norm_num) ?_ ?_
    · intro r hr row hm
      obtain ⟨p, hp, hin, -⟩ := hr1 r hr
      obtain ⟨-, hvp, hne, hrow⟩ := hin v row hm
      refine ⟨hne, fun e he => ?_⟩
      obtain ⟨h1, h2, h3⟩ := hrow e he
      exact ⟨by simpa using hall p hp hvp e.1 h1 h2, h3⟩
    · intro s hs
      simp only [List.mem_cons, List.not_mem_nil, or_false] at hs
      rcases hs with rfl | rfl
      · exact hcase _ hhA hA
      · exact hcase _ hhB hB
  · rintro v ⟨row, hm⟩
    obtain ⟨r, hr, row', hm'⟩ := mem_collect rs v row hm
    obtain ⟨p, hp, hin, -⟩ := hr1 r hr
    exact (hin v row' hm').1

/-- The four small triangles of a triangle with the corners 1, 2, 3 and the middles 4 (of 1 2), 5 (of 1 3), 6 (of 2 3). -/
def HangingNode.triangle (q : List Nat) : Side × Side × Bool :=
  (⟨4, fun _ => [0, 1, 2], fun _ i => q.getD i 0, fun i => [4, 5, 6].contains (q.getD i 0)⟩,
    ⟨4, fun _ => [0, 1, 2], fun _ i => [1, 2, 3].getD i 0, fun _ => false⟩, true)

example : ∀ p ∈ [triangle [1, 4, 5], triangle [4, 2, 6], triangle [5, 6, 3], triangle [6, 5, 4]],
    OneSided 3 [4, 5, 6].contains p.1 p.2.1 ∧ p.1.size = 4 ∧ (p.1.sub 3).length = 3 := by
  simp only [List.forall_mem_cons, List.not_mem_nil, false_imp_iff, implies_true, and_true]
  refine ⟨⟨⟨?_, by decide, by decide, by decide⟩, rfl, rfl⟩, ⟨⟨?_, by decide, by decide, by decide⟩, rfl, rfl⟩,
    ⟨⟨?_, by decide, by decide, by decide⟩, rfl, rfl⟩, ⟨⟨?_, by decide, by decide, by decide⟩, rfl, rfl⟩⟩ <;>
    (unfold Consistent; decide)

example : (constraintsOf (assembleP1 (K := Rat)) 3 3
    [triangle [1, 4, 5], triangle [4, 2, 6], triangle [5, 6, 3], triangle [6, 5, 4]]).map (fun cg => cg.rows) =
    some [(4, [(1, 1 / 2), (2, 1 / 2)]), (5, [(1, 1 / 2), (3, 1 / 2)]), (6, [(2, 1 / 2), (3, 1 / 2)])] := by
  decide +kernel

end

/-! ### C81: isolation of hanging nodes -/

/-- C81: when the isolation returns, the levels of any two leaf cells sharing a vertex differ by at most one, and the information about
the nodes is the one of the returned grid. -/
theorem C81_isolated {G : Type} (cells : G → List Cell) (refine : G → List Cell → G) (extra : G → Info → Cell → Bool) (fuel : Nat)
    (g g' : G) (info' : Info) (h : adaptToIsolated cells refine extra fuel (analyzeView (cells g)) g = some (g', info')) :
    info' = analyzeView (cells g') ∧
      ∀ c ∈ cells g', ∀ c' ∈ cells g', ∀ v, Contains c v → Contains c' v → c'.level ≤ c.level + 1 := by
  induction fuel generalizing g with
  | zero => simp [adaptToIsolated] at h
  | succ n ih =>
    simp only [adaptToIsolated] at h
    split at h
    next hm =>
      simp only [Option.some.injEq, Prod.mk.injEq] at h
      obtain ⟨rfl, rfl⟩ := h
      refine ⟨rfl, ?_⟩
      intro c hc c' hc' v hv hv'
      have hnil := (markCells_nil _ _ _ []).1 (by simpa using hm)
      have hn := (hnil.2 c hc).1
      unfold needsRefinement at hn
      rw [List.any_eq_false] at hn
      have h1 := hn v hv
      have h2 := (analyze_spec v (cells g) fun _ => .init).2.2.1
      have h3 := ((h2 _).1 (Nat.le_refl _)).2 c' hc' hv'
      change c'.level ≤ (analyzeView (cells g) v).maximumLevel at h3
      simp only [gt_iff_lt, decide_eq_true_eq] at h1
      omega
    next hm => exact ih _ h

/-- C81: in grids of cubes each round refines exactly the cells which share a vertex with a cell at least two levels finer; an isolated
grid is not changed. -/
theorem C81_minimal (cells : List Cell) :
    (∀ c, c ∈ markCells (analyzeView cells) (fun _ => false) cells [] ↔
      c ∈ cells ∧ ∃ c' ∈ cells, ∃ v, Contains c v ∧ Contains c' v ∧ c.level + 2 ≤ c'.level) := by
  intro c
  rw [markCells_cubes, List.nil_append, List.mem_filter]
  refine and_congr_right fun hc => ?_
  unfold needsRefinement
  rw [List.any_eq_true]
  have h2 := fun v => (analyze_spec v cells fun _ => .init).2.2.1
  constructor
  · rintro ⟨v, hv, hlt⟩
    simp only [gt_iff_lt, decide_eq_true_eq] at hlt
    by_contra hno
    have hle : (analyzeView cells v).maximumLevel ≤ c.level + 1 := by
      refine (h2 v (c.level + 1)).2 ⟨by simp [NodeInfo.init], ?_⟩
      intro c' hc' hv'
      by_contra hcc
      exact hno ⟨c', hc', v, hv, hv', by omega⟩
    omega
  · rintro ⟨c', hc', v, hv, hv', hl⟩
    refine ⟨v, hv, ?_⟩
    have h3 := ((h2 v _).1 (Nat.le_refl _)).2 c' hc' hv'
    change c'.level ≤ (analyzeView cells v).maximumLevel at h3
    simp only [gt_iff_lt, decide_eq_true_eq]
    omega

/-- Cells on a line; marked cells are replaced by two cells. The grid is the list of the cells (left vertex, right vertex, level), the
coordinates are multiples of the smallest width. -/
def HangingNode.lineCells (g : List (Nat × Nat × Nat)) : List Cell := g.map fun c => ⟨c.2.2, [c.1, c.2.1], []⟩
def HangingNode.lineRefine (g : List (Nat × Nat × Nat)) (m : List Cell) : List (Nat × Nat × Nat) :=
  g.flatMap fun c => if m.contains ⟨c.2.2, [c.1, c.2.1], []⟩ then [(c.1, (c.1 + c.2.1) / 2, c.2.2 + 1), ((c.1 + c.2.1) / 2, c.2.1, c.2.2 + 1)]
    else [c]

/-- A cell of level 0 beside cells of level 3: two rounds are needed. -/
example : (adaptToIsolated lineCells lineRefine (fun _ _ _ => false) 10
    (analyzeView (lineCells [(0, 8, 0), (8, 9, 3), (9, 10, 3)])) [(0, 8, 0), (8, 9, 3), (9, 10, 3)]).map (·.1) =
    some [(0, 4, 1), (4, 6, 2), (6, 8, 2), (8, 9, 3), (9, 10, 3)] := by
  decide +kernel

/-! ### C82: detection of hanging nodes -/

/-- C82: a vertex is reported as hanging exactly if it is a corner of a non-conforming face of a fine cell, whose neighbour on a coarser
level is coarser than all cells of which the vertex is a corner. The corners of faces are corners of the cells, and levels are less than
65535. -/
theorem C82_hanging (cells : List Cell) (hlev : ∀ c ∈ cells, c.level < maxShort)
    (hface : ∀ c ∈ cells, ∀ f ∈ c.faces, ∀ v ∈ f.vertices, v ∈ c.vertices) (v : Nat) (hv : ∃ c ∈ cells, Contains c v) :
    (analyzeView cells).isHanging v = true ↔
      ∃ l, OnFaceOfCoarser cells v l ∧ ∀ c ∈ cells, Contains c v → l < c.level := by
  obtain ⟨h1, h2, -, -⟩ := analyze_spec v cells fun _ => .init
  change (∀ m, m ≤ (analyzeView cells v).minimumTouchingLevel ↔ _) at h1
  change (∀ m, m ≤ (analyzeView cells v).minimumLevel ↔ _) at h2
  unfold Info.isHanging
  rw [decide_eq_true_eq]
  obtain ⟨c0, hc0, hv0⟩ := hv
  have hml := ((h2 _).1 (Nat.le_refl _)).2
  constructor
  · intro hlt
    by_contra hno
    have : (analyzeView cells v).minimumTouchingLevel + 1 ≤ (analyzeView cells v).minimumTouchingLevel := by
      refine (h1 _).2 ⟨?_, ?_⟩
      · have := hml c0 hc0 hv0
        have := hlev c0 hc0
        simp only [NodeInfo.init]
        omega
      · intro c hc f hf l ht
        by_contra hcon
        unfold Touches at ht
        split at ht
        · next ds hk =>
          obtain ⟨⟨b, hb⟩, rfl⟩ := ht
          have := hml c hc (hface c hc f hf v (List.of_mem_zip hb).1)
          omega
        · exact ht
        · next fl hk =>
          obtain ⟨hle, hvf, rfl⟩ := ht
          refine hno ⟨l, ⟨c, hc, f, hf, hvf, hk, hle⟩, ?_⟩
          intro c' hc' hv'
          have := hml c' hc' hv'
          omega
    omega
  · rintro ⟨l, ⟨c, hc, f, hf, hvf, hk, hle⟩, hall⟩
    have hmt := ((h1 _).1 (Nat.le_refl _)).2 c hc f hf l (by unfold Touches; rw [hk]; exact ⟨hle, hvf, rfl⟩)
    have : l + 1 ≤ (analyzeView cells v).minimumLevel := by
      refine (h2 _).2 ⟨?_, ?_⟩
      · have := hall c0 hc0 hv0
        have := hlev c0 hc0
        simp only [NodeInfo.init]
        omega
      · intro c' hc' hv'
        have := hall c' hc' hv'
        omega
    omega

/-- A coarse square left of two fine ones: vertex 5 in the middle of the common edge (2, 8) is hanging. -/
def HangingNode.threeCells : List Cell :=
  [⟨0, [1, 2, 7, 8], [⟨[2, 8], .nonconforming 1⟩, ⟨[2, 8], .nonconforming 1⟩, ⟨[1, 2], .boundary [true, true]⟩]⟩,
   ⟨1, [2, 3, 5, 6], [⟨[2, 5], .nonconforming 0⟩, ⟨[5, 6], .conforming⟩, ⟨[2, 3], .boundary [true, true]⟩]⟩,
   ⟨1, [5, 6, 8, 9], [⟨[5, 8], .nonconforming 0⟩, ⟨[5, 6], .conforming⟩]⟩]

example : (∀ c ∈ threeCells, c.level < maxShort) ∧ (∀ c ∈ threeCells, ∀ f ∈ c.faces, ∀ v ∈ f.vertices, v ∈ c.vertices) ∧
    [1, 2, 3, 5, 6, 7, 8, 9].map (analyzeView threeCells).isHanging = [false, false, false, true, false, false, false, false] := by
  decide

/-- C82, part on the boundary: if all boundary faces agree about a vertex, it is reported as Dirichlet exactly if it is on a boundary
face with that flag. -/
theorem C82_boundary_partial (cells : List Cell) (v : Nat) (hagree : ∀ b b', BoundaryFlag cells v b → BoundaryFlag cells v b' → b = b') :
    (analyzeView cells v).isBoundary = true ↔ BoundaryFlag cells v true := by
  classical
  obtain ⟨-, -, -, h⟩ := analyze_spec v cells fun _ => .init
  have hiff : ∀ b, (∃ c ∈ cells, ∃ f ∈ c.faces, Flags f v b) ↔ BoundaryFlag cells v b := by
    intro b
    refine exists_congr fun c => and_congr_right fun _ => exists_congr fun f => and_congr_right fun _ => ?_
    unfold Flags
    cases hk : f.kind <;> simp
  by_cases hex : ∃ b, BoundaryFlag cells v b
  · obtain ⟨b, hb⟩ := hex
    have h' := h b (fun c hc f hf b' hb' => hagree b' b ((hiff b').1 ⟨c, hc, f, hf, hb'⟩) hb)
    change (analyzeView cells v).isBoundary = _ at h'
    obtain ⟨c, hc, f, hf, hfl⟩ := (hiff b).2 hb
    rw [if_pos ⟨c, hc, f, hf, b, hfl⟩] at h'
    rw [h']
    constructor
    · rintro rfl; exact hb
    · intro ht; exact hagree b true hb ht
  · have h' := h true (fun c hc f hf b' hb' => absurd ⟨b', (hiff b').1 ⟨c, hc, f, hf, hb'⟩⟩ hex)
    change (analyzeView cells v).isBoundary = _ at h'
    rw [if_neg (fun ⟨c, hc, f, hf, b, hb⟩ => hex ⟨b, (hiff b).1 ⟨c, hc, f, hf, hb⟩⟩)] at h'
    rw [h']
    constructor
    · intro h; simp [NodeInfo.init] at h
    · intro h; exact absurd ⟨true, h⟩ hex

example : (∀ b b', BoundaryFlag threeCells 2 b → BoundaryFlag threeCells 2 b' → b = b') ∧ BoundaryFlag threeCells 2 true := by
  have h : ∀ b, BoundaryFlag threeCells 2 b → b = true := by
    rintro b ⟨c, hc, f, hf, ds, hk, hb⟩
    simp only [threeCells, List.mem_cons, List.not_mem_nil, or_false] at hc
    rcases hc with rfl | rfl | rfl <;> simp only [List.mem_cons, List.not_mem_nil, or_false] at hf <;>
      rcases hf with rfl | rfl | rfl <;> simp only [FaceKind.boundary.injEq, reduceCtorEq] at hk <;> subst hk <;>
      simpa using hb
  exact ⟨fun b b' hb hb' => (h b hb).trans (h b' hb').symm,
    threeCells[0], by decide, ⟨[1, 2], .boundary [true, true]⟩, by decide, [true, true], rfl, by decide⟩

/-- C82, negated for vertices between parts of the boundary: the flag is the one of the boundary face visited last, so that it depends on
the numbering of the faces. -/
theorem C82_boundary_false : ∃ cells cells' : List Cell, cells.length = 1 ∧
    (∃ c c', cells = [c] ∧ cells' = [c'] ∧ c.level = c'.level ∧ c.vertices = c'.vertices ∧ c.faces.Perm c'.faces) ∧
    (analyzeView cells 1).isBoundary = true ∧ (analyzeView cells' 1).isBoundary = false := by
  refine ⟨[⟨0, [1, 2, 3], [⟨[1, 2], .boundary [false, false]⟩, ⟨[1, 3], .boundary [true, true]⟩]⟩],
    [⟨0, [1, 2, 3], [⟨[1, 3], .boundary [true, true]⟩, ⟨[1, 2], .boundary [false, false]⟩]⟩], rfl,
    ⟨_, _, rfl, rfl, rfl, rfl, List.Perm.swap _ _ _⟩, by decide, by decide⟩

end Verif
