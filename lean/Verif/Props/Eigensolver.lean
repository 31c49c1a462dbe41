import Verif.Proofs.Eigensolver
import Verif.Proofs.BlockDiagonal
import Mathlib.Algebra.Order.Field.Basic
import Mathlib.Algebra.Order.Ring.Rat
import Mathlib.Data.List.Sort
import Mathlib.Algebra.BigOperators.Fin
import Mathlib.Tactic.FinCases
/-
Theorems about the eigensolver (C226).
-/
namespace Verif

open Eigensolver Eigensolver.Spec Finset

section general

variable {K : Type} [Field K] [LinearOrder K] {N b : Nat}

/-- What `compute` returns: the found pairs in the order of the sorted indices. -/
theorem Eigensolver.compute_eq (sort : (Nat → Nat → Bool) → List Nat → List Nat) (hsort : Sorts (K := K) sort)
    (solve : BlockMat K N b → Blocks K N b → Blocks K N b) (arpack : (Flat K N b → Flat K N b → Flat K N b) → Nat → List (Raw K N b))
    (A B S : BlockMat K N b) (sigma : K) (nev : Nat) (hS : axpy (-sigma) A B = some S)
    (hfound : Found (multMv solve S B) nev (arpack (multMv solve S B) nev)) :
    ∃ r, compute sort solve arpack A B sigma nev = some r ∧
      r.Perm ((arpack (multMv solve S B) nev).map fun e => (unshift sigma e.re, e.vec)) ∧ (r.map Prod.fst).Pairwise (· ≤ ·) := by
  obtain ⟨hlen, hall⟩ := hfound
  unfold compute
  rw [hS]
  show ∃ r, (List.range nev).mapM _ = some r ∧ _
  dsimp only
  generalize hf : arpack (multMv solve S B) nev = found at hlen hall
  obtain ⟨hperm, hsorted⟩ := hsort (fun i => unshift sigma (((found[i]?).map Raw.re).getD 0)) (List.range nev)
  generalize hidx : sort (fun a c => decide (unshift sigma (((found[a]?).map Raw.re).getD 0) <
    unshift sigma (((found[c]?).map Raw.re).getD 0))) (List.range nev) = index at hperm hsorted
  have hil : index.length = nev := by rw [hperm.length_eq, List.length_range]
  have hk : ∀ k ∈ index, ∃ e, found[k]? = some e ∧ e.re ≠ 0 := by
    intro k hk
    have : k < found.length := by
      have := hperm.mem_iff.1 hk
      rw [List.mem_range] at this
      omega
    exact ⟨found[k], List.getElem?_eq_getElem this, (hall _ (List.getElem_mem this)).2.1⟩
  let g : Nat → K × Flat K N b := fun k =>
    match found[k]? with
    | some e => (unshift sigma e.re, e.vec)
    | none => (0, fun _ => 0)
  have hg : ∀ k e, found[k]? = some e → g k = (unshift sigma e.re, e.vec) := by
    intro k e h
    show (match found[k]? with | some e => (unshift sigma e.re, e.vec) | none => (0, fun _ => 0)) = _
    rw [h]
  have hm : ∀ (m : Nat), m ≤ nev → (List.range m).mapM (fun i => (index[i]?).bind fun k => (found[k]?).bind fun e =>
      if e.re = 0 then none else some (unshift sigma e.re, e.vec)) = some ((index.take m).map g) := by
    intro m
    induction m with
    | zero => intro _; simp
    | succ m ih =>
      intro hm
      have hmi : m < index.length := by omega
      obtain ⟨e, he, hne⟩ := hk index[m] (List.getElem_mem hmi)
      rw [List.range_succ, List.mapM_append, ih (by omega), List.take_add_one, List.getElem?_eq_getElem hmi]
      have e1 : (index[m]?).bind (fun k => (found[k]?).bind fun e =>
          if e.re = 0 then none else some (unshift sigma e.re, e.vec)) = some (g index[m]) := by
        rw [List.getElem?_eq_getElem hmi, Option.bind_some, he, Option.bind_some, if_neg hne, hg _ _ he]
      rw [List.mapM_cons, e1, List.mapM_nil, List.map_append]
      rfl
  refine ⟨index.map g, ?_, ?_, ?_⟩
  · have := hm nev (le_refl _)
    rw [List.take_of_length_le (by omega)] at this
    exact this
  · have h1 : (index.map g).Perm ((List.range nev).map g) := hperm.map g
    refine h1.trans ?_
    have : (List.range nev).map g = found.map fun e => (unshift sigma e.re, e.vec) := by
      apply List.ext_getElem?
      intro i
      rw [List.getElem?_map, List.getElem?_map]
      by_cases hi : i < found.length
      · rw [List.getElem?_range (by omega), List.getElem?_eq_getElem hi, Option.map_some, Option.map_some,
          hg i _ (List.getElem?_eq_getElem hi)]
      · rw [List.getElem?_eq_none (by simp; omega), List.getElem?_eq_none (by omega)]
        rfl
    rw [this]
  · rw [List.map_map, List.pairwise_map]
    refine List.Pairwise.imp_of_mem ?_ hsorted
    intro a c ha hc hac
    obtain ⟨e, he, -⟩ := hk a ha
    obtain ⟨e', he', -⟩ := hk c hc
    rw [he, he'] at hac
    show (g a).1 ≤ (g c).1
    rw [hg a e he, hg c e' he']
    exact hac

/-- C226, eigenpairs: if the pattern of `B` is contained in that of `A`, the direct solver inverts `A - sigma B`, and ARPACK finds as many nonzero real
eigenvalues of the operator it is given as vectors were passed, the solver returns so many pairs, each a generalised eigenpair of the two
matrices, with ascending eigenvalues; the vectors are exactly those found by ARPACK. -/
theorem C226_eigenpairs_partial (sort : (Nat → Nat → Bool) → List Nat → List Nat) (hsort : Sorts (K := K) sort)
    (solve : BlockMat K N b → Blocks K N b → Blocks K N b) (arpack : (Flat K N b → Flat K N b → Flat K N b) → Nat → List (Raw K N b))
    (A B : BlockMat K N b) (sigma : K) (nev : Nat) (hpat : ∀ I J, A I J = none → B I J = none) (hsolve : Solves solve A B sigma)
    (hfound : ∀ S, axpy (-sigma) A B = some S → Found (multMv solve S B) nev (arpack (multMv solve S B) nev)) :
    ∃ r, compute sort solve arpack A B sigma nev = some r ∧ r.length = nev ∧ (r.map Prod.fst).Pairwise (· ≤ ·) ∧
      (∀ p ∈ r, Eigenpair A B p.1 p.2) ∧
      ∃ S, axpy (-sigma) A B = some S ∧ (r.map Prod.snd).Perm ((arpack (multMv solve S B) nev).map Raw.vec) := by
  obtain ⟨S, hS⟩ : ∃ S, axpy (-sigma) A B = some S := by
    unfold axpy
    rw [if_pos hpat]
    exact ⟨_, rfl⟩
  have hF := hfound S hS
  obtain ⟨r, h1, h2, h3⟩ := compute_eq sort hsort solve arpack A B S sigma nev hS hF
  refine ⟨r, h1, ?_, h3, ?_, S, hS, ?_⟩
  · rw [h2.length_eq, List.length_map, hF.1]
  · intro p hp
    obtain ⟨e, he, rfl⟩ := List.mem_map.1 (h2.mem_iff.1 hp)
    obtain ⟨-, hne, hop⟩ := hF.2 e he
    exact op_eigenpair solve A B S sigma e.re hS hsolve e.vec (fun _ => 0) hne (hop _)
  · have := h2.map Prod.snd
    rw [List.map_map] at this
    exact this

/-- C226, nearest: if, moreover, ARPACK finds the eigenvalues of largest magnitude, the eigenvalues returned are those nearest to the shift: every
generalised eigenvalue of the two matrices is returned or at least as far from the shift as every returned one. -/
theorem C226_nearest_partial [IsStrictOrderedRing K] (sort : (Nat → Nat → Bool) → List Nat → List Nat) (hsort : Sorts (K := K) sort)
    (solve : BlockMat K N b → Blocks K N b → Blocks K N b) (arpack : (Flat K N b → Flat K N b → Flat K N b) → Nat → List (Raw K N b))
    (A B : BlockMat K N b) (sigma : K) (nev : Nat) (hpat : ∀ I J, A I J = none → B I J = none) (hsolve : Solves solve A B sigma)
    (hfound : ∀ S, axpy (-sigma) A B = some S → Found (multMv solve S B) nev (arpack (multMv solve S B) nev) ∧
      Largest (multMv solve S B) (arpack (multMv solve S B) nev)) (lambda : K) (x : Flat K N b) (hx : x ≠ 0) (hpair : Eigenpair A B lambda x) :
    ∃ r, compute sort solve arpack A B sigma nev = some r ∧
      ((∃ p ∈ r, p.1 = lambda) ∨ ∀ p ∈ r, |p.1 - sigma| ≤ |lambda - sigma|) := by
  obtain ⟨S, hS⟩ : ∃ S, axpy (-sigma) A B = some S := by
    unfold axpy
    rw [if_pos hpat]
    exact ⟨_, rfl⟩
  obtain ⟨hF, hL⟩ := hfound S hS
  obtain ⟨r, h1, h2, -⟩ := compute_eq sort hsort solve arpack A B S sigma nev hS hF
  refine ⟨r, h1, ?_⟩
  obtain ⟨hne, hop⟩ := eigenpair_op solve A B S sigma lambda hS hsolve x hx hpair
  have hd : lambda - sigma ≠ 0 := sub_ne_zero.2 hne
  rcases hL _ x hx hop with ⟨e, he, hmu⟩ | hle
  · left
    refine ⟨_, h2.mem_iff.2 (List.mem_map.2 ⟨e, he, rfl⟩), ?_⟩
    show sigma + 1 / e.re = lambda
    rw [hmu, one_div_one_div]
    ring
  · right
    intro p hp
    obtain ⟨e, he, rfl⟩ := List.mem_map.1 (h2.mem_iff.1 hp)
    have hre := (hF.2 e he).2.1
    have h3 := hle e he
    have e1 : unshift sigma e.re - sigma = 1 / e.re := by unfold unshift; ring
    show |unshift sigma e.re - sigma| ≤ _
    rw [e1, abs_div, abs_one]
    rw [abs_div, abs_one] at h3
    have hp1 : 0 < |lambda - sigma| := abs_pos.2 hd
    have hp2 : 0 < |e.re| := abs_pos.2 hre
    rw [div_le_iff₀ hp1] at h3
    rw [div_le_iff₀ hp2, mul_comm]
    exact h3

omit [LinearOrder K] in
/-- C226, conversion: block vectors are copied to and from arrays without loss, and the product with the second matrix is that of the flat
matrix, whatever was in the arrays before. -/
theorem C226_conversion (B : BlockMat K N b) (r : Blocks K N b) (v w : Flat K N b) :
    toBlocks (toArray r w) = r ∧ toArray (toBlocks v) w = v ∧ ∀ k, multMvB B v w k = ∑ l, flat B k l * v l := by
  refine ⟨?_, ?_, ?_⟩
  · funext I i
    exact toArray_pos r w I i
  · funext k
    rw [← pos_surj k, toArray_pos]
    rfl
  · intro k
    conv_lhs => rw [← pos_surj k]
    unfold multMvB
    rw [toArray_pos, mv_flat, pos_surj]

end general

/-! ### Witnesses -/

/-- Two block rows with blocks of one entry. -/
def eigenMat (a b c d : ℚ) : BlockMat ℚ 2 1 := fun I J => some fun _ _ =>
  if I = 0 then (if J = 0 then a else b) else (if J = 0 then c else d)

/-- A direct solver for two rows, by Cramer's rule. -/
def eigenSolve (S : BlockMat ℚ 2 1) (y : Blocks ℚ 2 1) : Blocks ℚ 2 1 := fun I _ =>
  let a := entry S 0 0 0 0; let b := entry S 0 1 0 0; let c := entry S 1 0 0 0; let d := entry S 1 1 0 0
  let det := a * d - b * c
  if I = 0 then (d * y 0 0 - b * y 1 0) / det else (a * y 1 0 - c * y 0 0) / det

/-- `std::sort`. -/
def eigenSort (less : Nat → Nat → Bool) (l : List Nat) : List Nat := l.insertionSort fun a c => less c a = false

example : Sorts (K := ℚ) eigenSort := by
  intro key l
  unfold eigenSort
  have : Std.Total fun a c : Nat => decide (key c < key a) = false := ⟨fun a c => by
    simp only [decide_eq_false_iff_not, not_lt]
    exact le_total _ _⟩
  have : IsTrans Nat fun a c => decide (key c < key a) = false := ⟨fun a c d h1 h2 => by
    simp only [decide_eq_false_iff_not, not_lt] at h1 h2 ⊢
    exact le_trans h1 h2⟩
  refine ⟨List.perm_insertionSort _ _, ?_⟩
  exact (List.pairwise_insertionSort _ l).imp fun h => by simpa using h

/-- `A = diag(2,4)`, `B` the identity, shift one: the operator has the eigenvalues `1` and `1/3`, the pencil `2` and `4`. -/
def eigenArpack (_ : Flat ℚ 2 1 → Flat ℚ 2 1 → Flat ℚ 2 1) (_ : Nat) : List (Raw ℚ 2 1) :=
  [⟨1 / 3, 0, fun k => if k = 0 then 0 else 1⟩, ⟨1, 0, fun k => if k = 0 then 1 else 0⟩]

example : (compute eigenSort eigenSolve eigenArpack (eigenMat 2 0 0 4) (eigenMat 1 0 0 1) 1 2).map (fun r => r.map Prod.fst) =
    some [2, 4] := by decide +kernel

example : ∀ S, axpy (-1) (eigenMat 2 0 0 4) (eigenMat 1 0 0 1) = some S →
    Found (multMv eigenSolve S (eigenMat 1 0 0 1)) 2 (eigenArpack (multMv eigenSolve S (eigenMat 1 0 0 1)) 2) := by
  intro S hS
  have e : S = fun I J => some fun _ _ => if I = J then (if I = 0 then 1 else 3) else 0 := by
    have : axpy (-1) (eigenMat 2 0 0 4) (eigenMat 1 0 0 1) =
        some (fun I J => some fun _ _ => if I = J then (if I = 0 then 1 else 3) else 0 : BlockMat ℚ 2 1) := by
      unfold axpy
      rw [if_pos (by intro I J h; cases h)]
      congr 1
      funext I J
      have : ∀ I J : Fin 2, (if I = 0 then (if J = 0 then 2 else 0) else (if J = 0 then 0 else 4)) +
          (-1 : ℚ) * (if I = 0 then (if J = 0 then 1 else 0) else (if J = 0 then 0 else 1)) =
          if I = J then (if I = 0 then 1 else 3) else 0 := by decide +kernel
      show some _ = some _
      congr 1
      funext i j
      exact this I J
    rw [this] at hS
    exact (Option.some.inj hS).symm
  subst e
  refine ⟨rfl, ?_⟩
  intro x hx
  rcases List.mem_cons.1 hx with rfl | hx
  · refine ⟨rfl, by decide +kernel, fun w => ?_⟩
    intro k
    rw [← pos_surj k]
    unfold multMv
    rw [toArray_pos]
    generalize Fin.divNat (m := 2) (n := 1) k = I
    generalize Fin.modNat (m := 2) (n := 1) k = i
    revert I i
    decide +kernel
  · rcases List.mem_cons.1 hx with rfl | hx
    · refine ⟨rfl, by decide +kernel, fun w => ?_⟩
      intro k
      rw [← pos_surj k]
      unfold multMv
      rw [toArray_pos]
      generalize Fin.divNat (m := 2) (n := 1) k = I
      generalize Fin.modNat (m := 2) (n := 1) k = i
      revert I i
      decide +kernel
    · cases hx

/-- The direct solver of the example meets its contract. -/
theorem Eigensolver.eigenSolve_ok : Solves eigenSolve (eigenMat 2 0 0 4) (eigenMat 1 0 0 1) 1 := by
  intro S hS
  have h : ∀ I J i j, entry S I J i j = if I = J then (if I = 0 then 1 else 3) else 0 := by
    intro I J i j
    rw [← flat_pos, hS, flat_pos, flat_pos]
    revert I J i j
    decide +kernel
  constructor
  · intro y I i
    have hi : i = 0 := Subsingleton.elim _ _
    subst hi
    simp only [Fin.sum_univ_two, Fin.sum_univ_one, Fin.isValue, h]
    unfold eigenSolve
    simp only [h]
    fin_cases I <;> simp
    ring
  · intro x
    funext I i
    have hi : i = 0 := Subsingleton.elim _ _
    subst hi
    unfold eigenSolve
    simp only [Fin.sum_univ_two, Fin.sum_univ_one, Fin.isValue, h]
    fin_cases I <;> simp

/-- The eigenvalues of the operator are the two found. -/
example : ∀ S, axpy (-1) (eigenMat 2 0 0 4) (eigenMat 1 0 0 1) = some S →
    Largest (multMv eigenSolve S (eigenMat 1 0 0 1)) (eigenArpack (multMv eigenSolve S (eigenMat 1 0 0 1)) 2) := by
  intro S hS mu x hx hop
  left
  have hf := axpy_flat _ _ _ _ hS
  have h : ∀ I J i j, entry S I J i j = if I = J then (if I = 0 then 1 else 3) else 0 := by
    intro I J i j
    rw [← flat_pos, hf, flat_pos, flat_pos]
    revert I J i j
    decide +kernel
  have h' : ∀ I J i j, entry (eigenMat 1 0 0 1) I J i j = if I = J then 1 else 0 := by decide +kernel
  have e0 := hop (fun _ => 0) (pos 0 0)
  have e1 := hop (fun _ => 0) (pos 1 0)
  unfold multMv at e0 e1
  rw [toArray_pos] at e0 e1
  unfold eigenSolve mv toBlocks at e0 e1
  simp only [Fin.sum_univ_two, Fin.sum_univ_one, Fin.isValue, h, h'] at e0 e1
  simp at e0 e1
  by_cases hz : x (pos 0 0) = 0
  · have h1 : x (pos 1 0) ≠ 0 := by
      intro h1
      apply hx
      funext k
      rw [← pos_surj k]
      generalize Fin.modNat (m := 2) (n := 1) k = i
      have hi : i = 0 := Subsingleton.elim _ _
      subst hi
      generalize Fin.divNat (m := 2) (n := 1) k = I
      fin_cases I
      · exact hz
      · exact h1
    refine ⟨_, List.mem_cons_self, ?_⟩
    show (1 / 3 : ℚ) = mu
    have : (1 / 3 - mu) * x (pos 1 0) = 0 := by linear_combination e1
    rcases mul_eq_zero.1 this with h | h
    · exact sub_eq_zero.1 h
    · exact absurd h h1
  · refine ⟨_, List.mem_cons_of_mem _ List.mem_cons_self, ?_⟩
    show (1 : ℚ) = mu
    have : (1 - mu) * x (pos 0 0) = 0 := by linear_combination e0
    rcases mul_eq_zero.1 this with h | h
    · exact sub_eq_zero.1 h
    · exact absurd h hz

/-- C226 is false for pairs of conjugate complex eigenvalues: their imaginary parts are ignored, and what is returned for the real part is no
eigenpair. Here `A = [[1,-1],[1,1]]` with the eigenvalues `1 ± i`, `B` the identity and no shift; the inverse of `A` has the eigenvalue
`(1 + i)/2` with the eigenvector `(1,0) + i (0,1)`, of which ARPACK stores the real part first. -/
theorem C226_complex_false : ∃ (A B S : BlockMat ℚ 2 1) (e : Raw ℚ 2 1) (im : Flat ℚ 2 1), axpy (-0) A B = some S ∧
    (∀ w k, multMv eigenSolve S B e.vec w k = e.re * e.vec k - e.im * im k ∧
      multMv eigenSolve S B im w k = e.re * im k + e.im * e.vec k) ∧
    ∃ r, compute eigenSort eigenSolve (fun _ _ => [e]) A B 0 1 = some r ∧ ∃ p ∈ r, ¬ Eigenpair A B p.1 p.2 := by
  refine ⟨eigenMat 1 (-1) 1 1, eigenMat 1 0 0 1, fun I J => (eigenMat 1 (-1) 1 1 I J).map fun a => match eigenMat 1 0 0 1 I J with
      | some m => fun i j => a i j + -0 * m i j
      | none => a, ⟨1 / 2, 1 / 2, fun k => if k = 0 then 1 else 0⟩, fun k => if k = 0 then 0 else 1, ?_, ?_,
    [(2, fun k => if k = 0 then 1 else 0)], ?_, _, List.mem_cons_self, ?_⟩
  · unfold axpy
    rw [if_pos (by intro I J h; cases h)]
    congr 1
  · intro w k
    rw [← pos_surj k]
    unfold multMv
    rw [toArray_pos, toArray_pos]
    generalize Fin.divNat (m := 2) (n := 1) k = I
    generalize Fin.modNat (m := 2) (n := 1) k = i
    revert I i
    decide +kernel
  · unfold compute axpy
    rw [if_pos (by intro I J h; cases h)]
    have : unshift (0 : ℚ) (1 / 2) = 2 := by decide +kernel
    show (if (1 / 2 : ℚ) = 0 then none else some (unshift (0 : ℚ) (1 / 2), _)).bind _ = _
    rw [if_neg (by decide +kernel), this]
    rfl
  · unfold Eigenpair
    decide +kernel

end Verif
