import Verif.Proofs.ConstrainedSolve
import Mathlib.Algebra.Order.Field.Basic
import Mathlib.Algebra.Order.Ring.Rat
import Mathlib.Algebra.BigOperators.Fin
import Mathlib.Tactic.FinCases
import Mathlib.Tactic.Linarith
import Mathlib.Tactic.NormNum
/-
C232: stationary problems with Dirichlet and with linear constraints (hanging nodes, periodic boundaries).
-/
namespace Verif
open Constraints Assembly ConstrainedSolve

section
variable {I F : Type} [DecidableEq I] [DecidableEq F] [Field F] [Fintype I]

/-- **C232 (linear solver).** With the modifications for hanging nodes the solver for linear problems returns, for any initial guess, the solution
of the discrete problem (it satisfies the linear constraints, and the residual vanishes for all test functions that satisfy the constraints
and are zero at the Dirichlet degrees of freedom) with the Dirichlet values of the initial guess; there is only one. -/
theorem C232_linear_solver (t : Trafo I F) (h : Admissible t) (symmetric : Bool) (ci0 : Nat → I) (pattern : List (PatternPart I))
    (parts : List (Part I F)) (hp : PatternFits t pattern parts) (A : Part I F → Nat → Nat → F) (b : Part I F → Nat → F)
    (ha : ∀ p ∈ parts, Affine p (A p) (b p)) (hreg : Regular t parts) (solve : Matrix I F → (I → F) → I → F) (hs : Exact solve)
    (x : I → F) :
    ∃ x', applyLinear t symmetric ci0 pattern parts solve true x = some x' ∧ Galerkin t parts x' ∧
      (∀ k, t.Dirichlet k → x' k = x k) ∧
      ∀ y, Galerkin t parts y → (∀ k, t.Dirichlet k → y k = x k) → y = x' := by
  have hx1 : Conforming t (backTransform t false (setShifted t 0 x)) := back_conforming h _ fun k hk => shifted_linear h x k hk
  obtain ⟨m, hm, hzc, hzf⟩ := correction h symmetric ci0 pattern parts hp A b ha hreg solve hs
    (backTransform t false (setShifted t 0 x))
  generalize hx : backTransform t false (setShifted t 0 x) = x1 at hx1 hm hzc hzf
  generalize hz : solve m (residual t parts x1) = z at hzc hzf
  have hg := corrected h parts A b ha x1 z hx1 hzc hzf
  have he : backTransform t false (fun i => setShifted t 0 x1 i - z i) = fun k => x1 k - backTransform t false z k := by
    refine conforming_ext h (back_conforming h _ fun k hk => ?_) hg.1 fun k hk => ?_
    · rw [shifted_linear h x1 k hk, hzc k (linear_constrained hk), sub_zero]
    · rw [(back_spec h _).1 k hk, (back_spec h z).1 k hk]
      congr 1
      by_cases hd : t.Dirichlet k
      · exact (setShifted_apply t 0 x1 k).1 hd
      · rw [(setShifted_apply t 0 x1 k).2 hd, ← hx, (back_spec h _).1 k hk, (setShifted_apply t 0 x k).2 hd]
  have hd : ∀ k, t.Dirichlet k → x1 k - backTransform t false z k = x k := by
    intro k hk
    rw [(back_spec h z).1 k (not_linear_of_dirichlet h hk), hzc k ⟨_, hk⟩, sub_zero, ← hx,
      (back_spec h _).1 k (not_linear_of_dirichlet h hk), (setShifted_apply t 0 x k).1 hk]
  refine ⟨fun k => x1 k - backTransform t false z k, ?_, hg, hd, fun y hy hyd =>
    galerkin_unique parts A b ha hreg y _ hy hg fun k hk => by rw [hyd k hk, hd k hk]⟩
  unfold applyLinear
  simp only [if_true, hx, hm, hz, Option.bind_eq_bind, Option.bind_some, he]
  rfl

/-- **C232 (Dirichlet constraints only).** If all constraints are Dirichlet constraints the modifications are not needed. -/
theorem C232_dirichlet_only (t : Trafo I F) (h : Admissible t) (hdir : ∀ k row, (k, row) ∈ t.rows → row = []) (symmetric : Bool)
    (ci0 : Nat → I) (pattern : List (PatternPart I)) (parts : List (Part I F)) (hp : PatternFits t pattern parts)
    (A : Part I F → Nat → Nat → F) (b : Part I F → Nat → F) (ha : ∀ p ∈ parts, Affine p (A p) (b p)) (hreg : Regular t parts)
    (solve : Matrix I F → (I → F) → I → F) (hs : Exact solve) (x : I → F) :
    ∃ x', applyLinear t symmetric ci0 pattern parts solve false x = some x' ∧ Galerkin t parts x' ∧
      (∀ k, t.Dirichlet k → x' k = x k) ∧
      ∀ y, Galerkin t parts y → (∀ k, t.Dirichlet k → y k = x k) → y = x' := by
  have hl : ∀ k, ¬ Linear t k := fun k ⟨row, hm, hn⟩ => hn (hdir k row hm)
  obtain ⟨m, hm, hzc, hzf⟩ := correction h symmetric ci0 pattern parts hp A b ha hreg solve hs x
  generalize hz : solve m (residual t parts x) = z at hzc hzf
  have hg := corrected h parts A b ha x z (fun k row hm hn => absurd (hdir k row hm) hn) hzc hzf
  have he : (fun k => x k - backTransform t false z k) = fun k => x k - z k := by
    funext k; rw [(back_spec h z).1 k (hl k)]
  rw [he] at hg
  have hd : ∀ k, t.Dirichlet k → x k - z k = x k := fun k hk => by rw [hzc k ⟨_, hk⟩, sub_zero]
  refine ⟨fun k => x k - z k, ?_, hg, hd, fun y hy hyd =>
    galerkin_unique parts A b ha hreg y _ hy hg fun k hk => by rw [hyd k hk, hd k hk]⟩
  unfold applyLinear
  simp only [Bool.false_eq_true, if_false, hm, hz, Option.bind_eq_bind, Option.bind_some]
  rfl

/-- **C232 (Newton's method).** With the modifications for hanging nodes, one undamped step of Newton's method solves a linear problem. -/
theorem C232_newton_step (t : Trafo I F) (h : Admissible t) (symmetric : Bool) (ci0 : Nat → I) (pattern : List (PatternPart I))
    (parts : List (Part I F)) (hp : PatternFits t pattern parts) (A : Part I F → Nat → Nat → F) (b : Part I F → Nat → F)
    (ha : ∀ p ∈ parts, Affine p (A p) (b p)) (hreg : Regular t parts) (solve : Matrix I F → (I → F) → I → F) (hs : Exact solve)
    (reassembled : Bool) (x : I → F) :
    ∃ m, jacobian t symmetric ci0 pattern parts (interpolate t x) = some m ∧
      let x' := iterate t [(reassembled, 1, solve m (residual t parts (interpolate t x)))] x
      Galerkin t parts x' ∧ (∀ k, t.Dirichlet k → x' k = x k) := by
  obtain ⟨hi1, hi2⟩ := interpolate_spec h x
  obtain ⟨m, hm, hzc, hzf⟩ := correction h symmetric ci0 pattern parts hp A b ha hreg solve hs (interpolate t x)
  refine ⟨m, hm, ?_⟩
  generalize solve m (residual t parts (interpolate t x)) = z at hzc hzf
  have hg := corrected h parts A b ha (interpolate t x) z hi1 hzc hzf
  have hii : interpolate t (interpolate t x) = interpolate t x :=
    conforming_ext h (interpolate_spec h _).1 hi1 fun k hk => (interpolate_spec h _).2 k hk
  have he : iterate t [(reassembled, 1, z)] x = fun k => interpolate t x k - backTransform t false z k := by
    unfold iterate
    simp only [List.foldl_cons, List.foldl_nil, hii, ite_self, one_mul]
    refine conforming_ext h (interpolate_spec h _).1 hg.1 fun k hk => ?_
    rw [(interpolate_spec h _).2 k hk, (back_spec h z).1 k hk]
  rw [he]
  refine ⟨hg, fun k hk => ?_⟩
  simp only
  rw [(back_spec h z).1 k (not_linear_of_dirichlet h hk), hzc k ⟨_, hk⟩, sub_zero, hi2 k (not_linear_of_dirichlet h hk)]

omit [Fintype I] [DecidableEq F] in
/-- **C232 (Newton's method, any problem).** Whatever the corrections and damping factors, and however often the matrix is reassembled, the
solution satisfies the linear constraints after every line search, and keeps its Dirichlet values if the corrections vanish there. -/
theorem C232_newton_conforming (t : Trafo I F) (h : Admissible t) (steps : List (Bool × F × (I → F))) (x : I → F) :
    Conforming t (iterate t steps x) ∧
      ((∀ s ∈ steps, ∀ k, t.Dirichlet k → s.2.2 k = 0) → ∀ k, t.Dirichlet k → iterate t steps x k = x k) := by
  unfold iterate
  have h0 := interpolate_spec h x
  suffices ∀ y : I → F, Conforming t y → (∀ k, t.Dirichlet k → y k = x k) →
      Conforming t (steps.foldl (fun x s => interpolate t fun i => (if s.1 then interpolate t x else x) i - s.2.1 * s.2.2 i) y) ∧
      ((∀ s ∈ steps, ∀ k, t.Dirichlet k → s.2.2 k = 0) → ∀ k, t.Dirichlet k →
        steps.foldl (fun x s => interpolate t fun i => (if s.1 then interpolate t x else x) i - s.2.1 * s.2.2 i) y k = x k) from
    this _ h0.1 fun k hk => h0.2 k (not_linear_of_dirichlet h hk)
  suffices ∀ y : I → F, Conforming t y →
      Conforming t (steps.foldl (fun x s => interpolate t fun i => (if s.1 then interpolate t x else x) i - s.2.1 * s.2.2 i) y) ∧
      ((∀ s ∈ steps, ∀ k, t.Dirichlet k → s.2.2 k = 0) → ∀ k, t.Dirichlet k →
        steps.foldl (fun x s => interpolate t fun i => (if s.1 then interpolate t x else x) i - s.2.1 * s.2.2 i) y k = y k) from
    fun y hy hd => ⟨(this y hy).1, fun hs k hk => by rw [(this y hy).2 hs k hk, hd k hk]⟩
  induction steps with
  | nil => intro y hy; exact ⟨hy, fun _ _ _ => rfl⟩
  | cons s steps ih =>
    intro y hy
    simp only [List.foldl_cons]
    obtain ⟨h1, h2⟩ := ih _ (interpolate_spec h fun i => (if s.1 then interpolate t y else y) i - s.2.1 * s.2.2 i).1
    refine ⟨h1, fun hs k hk => ?_⟩
    rw [h2 (fun s' hs' => hs s' (List.mem_cons_of_mem _ hs')) k hk,
      (interpolate_spec h _).2 k (not_linear_of_dirichlet h hk), hs s (by simp) k hk, mul_zero, sub_zero]
    by_cases hb : s.1 = true
    · rw [if_pos hb, (interpolate_spec h y).2 k (not_linear_of_dirichlet h hk)]
    · rw [if_neg hb]

omit [DecidableEq F] in
/-- **C232 (the residual).** For any local operator, linear or not, the residual of the grid operator is zero exactly if the residual form
vanishes for all test functions. -/
theorem C232_residual (t : Trafo I F) (h : Admissible t) (parts : List (Part I F)) (x : I → F) :
    (∀ r, residual t parts x r = 0) ↔ ∀ w, Homogeneous t w → form parts x w = 0 := by
  constructor
  · intro hr w hw
    rw [form_residual h parts x w hw]
    exact Finset.sum_eq_zero fun r _ => by rw [hr, mul_zero]
  · intro hf r
    by_cases hr : t.Constrained r
    · exact residual_constrained t parts x r hr
    · rw [residual_free h parts x r hr]
      exact hf _ (testWeight_homogeneous h r hr)

end

/-- **C232 (energy).** If the bilinear form is symmetric and not negative, the solution of the discrete problem has the smallest energy of all
functions that satisfy the constraints with the same Dirichlet values. -/
theorem C232_energy {I F : Type} [DecidableEq I] [Field F] [LinearOrder F] [IsStrictOrderedRing F]
    (t : Trafo I F) (parts : List (Part I F)) (A : Part I F → Nat → Nat → F) (b : Part I F → Nat → F)
    (ha : ∀ p ∈ parts, Affine p (A p) (b p)) (hsymm : ∀ x y, bilinear parts x y = bilinear parts y x)
    (hpos : ∀ y, Homogeneous t y → 0 ≤ bilinear parts y y) (x y : I → F) (hx : Galerkin t parts x) (hy : Conforming t y)
    (hd : ∀ k, t.Dirichlet k → y k = x k) : energy parts x ≤ energy parts y := by
  have hw : Homogeneous t fun k => y k - x k := ⟨conforming_sub hy hx.1, fun k hk => by simp only [hd k hk, sub_self]⟩
  have h1 := hpos _ hw
  have h2 := hx.2 _ hw
  have h3 := bilinear_sub parts A b ha y x fun k => y k - x k
  have h4 := bilinear_sub_right parts y y x
  have h5 := bilinear_sub_right parts x y x
  have h6 := form_sub_right parts (fun _ => 0) y x
  have h7 : bilinear parts x (fun k => y k - x k) = form parts x (fun k => y k - x k) - form parts (fun _ => 0) (fun k => y k - x k) := rfl
  have h8 := hsymm x y
  unfold energy
  linarith

/-- Four degrees of freedom on a line: 0 is a Dirichlet node, 2 a hanging node between 0 and 1. -/
def lineTrafo : Trafo (Fin 4) ℚ := ⟨[(2, [(0, 1/2), (1, 1/2)]), (0, [])], true⟩
/-- The element between two nodes: a stiffness matrix and a load. -/
def lineElement (a b : Fin 4) : Part (Fin 4) ℚ where
  nv := 2
  nu := 2
  v := fun i => if i = 0 then a else b
  u := fun i => if i = 0 then a else b
  residual := fun x i => -1 + ((List.range 2).map fun j => (if i = j then 1 else -1) * x j).sum
  jacobian := fun _ i j => if i = j then 1 else -1
/-- The elements. -/
def lineParts : List (Part (Fin 4) ℚ) := [lineElement 0 2, lineElement 2 1, lineElement 1 3]
/-- All couplings. -/
def linePattern : List (PatternPart (Fin 4)) :=
  [⟨4, 4, fun i => Fin.ofNat 4 i, fun i => Fin.ofNat 4 i, (List.range 4).flatMap fun i => (List.range 4).map fun j => (i, j)⟩]

theorem lineTrafo_admissible : Admissible lineTrafo where
  keys := by decide +kernel
  flag := fun _ _ _ _ => rfl
  chains := by
    intro k row hm e he row' hm'
    simp only [lineTrafo, List.mem_cons, Prod.mk.injEq, List.not_mem_nil, or_false] at hm hm'
    rcases hm with ⟨rfl, rfl⟩ | ⟨rfl, rfl⟩
    · simp only [List.mem_cons, List.not_mem_nil, or_false] at he
      rcases he with rfl | rfl <;> rcases hm' with ⟨h, _⟩ | ⟨_, h⟩
      · exact absurd h (by decide)
      · exact h
      · exact absurd h (by decide)
      · exact h
    · simp at he

theorem line_form (x w : Fin 4 → ℚ) : form lineParts x w =
    w 0 * (-1 + x 0 - x 2) + w 2 * (-1 - x 0 + x 2) + (w 2 * (-1 + x 2 - x 1) + w 1 * (-1 - x 2 + x 1)) +
      (w 1 * (-1 + x 1 - x 3) + w 3 * (-1 - x 1 + x 3)) := by
  simp only [form, lineParts, lineElement, List.map_cons, List.map_nil, List.sum_cons, List.sum_nil, List.range_succ, List.range_zero,
    List.nil_append, List.cons_append]
  simp
  ring

theorem line_bilinear (x w : Fin 4 → ℚ) : bilinear lineParts x w =
    (x 0 - x 2) * (w 0 - w 2) + (x 2 - x 1) * (w 2 - w 1) + (x 1 - x 3) * (w 1 - w 3) := by
  unfold bilinear
  rw [line_form, line_form]
  ring

theorem line_regular : Regular lineTrafo lineParts := by
  intro y hy hw
  have h := hw y hy
  rw [line_bilinear] at h
  have h0 : y 0 = 0 := hy.2 0 (by unfold Trafo.Dirichlet lineTrafo; simp)
  have h1 := mul_self_nonneg (y 0 - y 2)
  have h2 := mul_self_nonneg (y 2 - y 1)
  have h3 := mul_self_nonneg (y 1 - y 3)
  have e1 := mul_self_eq_zero.mp (show (y 0 - y 2) * (y 0 - y 2) = 0 by linarith)
  have e2 := mul_self_eq_zero.mp (show (y 2 - y 1) * (y 2 - y 1) = 0 by linarith)
  have e3 := mul_self_eq_zero.mp (show (y 1 - y 3) * (y 1 - y 3) = 0 by linarith)
  intro k
  fin_cases k <;> simp only [Fin.zero_eta, Fin.mk_one, Fin.reduceFinMk] <;> linarith

theorem linePattern_fits : PatternFits lineTrafo linePattern lineParts where
  valid := by
    intro q hq
    simp only [linePattern, List.mem_singleton] at hq
    subst hq
    intro l hl
    simp only [List.mem_flatMap, List.mem_map, List.mem_range] at hl
    obtain ⟨i, hi, j, hj, rfl⟩ := hl
    exact ⟨hi, hj⟩
  covered := by
    intro x p _ i _ j _ _
    refine ⟨_, List.mem_singleton.mpr rfl, ((p.v i).val, (p.u j).val), ?_, ?_, ?_⟩
    · simp only [List.mem_flatMap, List.mem_map, List.mem_range]
      exact ⟨_, (p.v i).isLt, _, (p.u j).isLt, rfl⟩
    · exact Fin.ofNat_val_eq_self _
    · exact Fin.ofNat_val_eq_self _
  diagonal := by
    intro k _
    refine ⟨_, List.mem_singleton.mpr rfl, (k.val, k.val), ?_, Fin.ofNat_val_eq_self _, Fin.ofNat_val_eq_self _⟩
    simp only [List.mem_flatMap, List.mem_map, List.mem_range]
    exact ⟨_, k.isLt, _, k.isLt, rfl⟩

theorem line_affine : ∀ p ∈ lineParts, Affine p (fun i j => if i = j then 1 else -1) fun _ => -1 := by
  intro p hp x
  simp only [lineParts, List.mem_cons, List.not_mem_nil, or_false] at hp
  rcases hp with rfl | rfl | rfl <;> exact ⟨rfl, fun _ _ => rfl⟩

open Classical in
/-- A linear solver that finds a solution whenever there is one. -/
noncomputable def chosen {I F : Type} [DecidableEq I] [CommRing F] [Fintype I] (m : Matrix I F) (r : I → F) : I → F :=
  if h : ∃ z : I → F, ∀ i, ∑ c, m.val i c * z c = r i then h.choose else 0

theorem chosen_exact {I F : Type} [DecidableEq I] [CommRing F] [Fintype I] : Exact (chosen : Matrix I F → (I → F) → I → F) := by
  intro m r h i
  unfold chosen
  rw [dif_pos h]
  exact h.choose_spec i

/-- The theorems apply, and the solution with the value 5 at the Dirichlet node is (5, 13, 9, 14). -/
example (symmetric : Bool) (ci0 : Nat → Fin 4) (guess : Fin 4 → ℚ) (h : guess 0 = 5) :
    applyLinear lineTrafo symmetric ci0 linePattern lineParts chosen true guess = some ![5, 13, 9, 14] := by
  obtain ⟨x', h1, h2, h3, h4⟩ := C232_linear_solver lineTrafo lineTrafo_admissible symmetric ci0 linePattern lineParts linePattern_fits
    (fun _ i j => if i = j then 1 else -1) (fun _ _ => -1) line_affine line_regular chosen chosen_exact guess
  rw [h1, h4 ![5, 13, 9, 14] _ _]
  · refine ⟨fun k row hm hn => ?_, fun w hw => ?_⟩
    · simp only [lineTrafo, List.mem_cons, Prod.mk.injEq, List.not_mem_nil, or_false] at hm
      rcases hm with ⟨rfl, rfl⟩ | ⟨rfl, rfl⟩
      · decide +kernel
      · exact absurd rfl hn
    · have e0 := hw.2 0 (by unfold Trafo.Dirichlet lineTrafo; simp)
      have e2 := hw.1 2 [(0, 1/2), (1, 1/2)] (by simp [lineTrafo]) (by simp)
      simp at e2
      rw [line_form]
      simp
      rw [e0] at e2 ⊢
      linarith
  · intro k hk
    simp only [lineTrafo, Trafo.Dirichlet, List.mem_cons, Prod.mk.injEq, List.not_mem_nil, or_false] at hk
    rcases hk with ⟨_, hk⟩ | ⟨rfl, _⟩
    · exact absurd hk (by simp)
    · exact h.symm
example : (∀ x y, bilinear lineParts x y = bilinear lineParts y x) ∧ ∀ y, 0 ≤ bilinear lineParts y y :=
  ⟨fun x y => by rw [line_bilinear, line_bilinear]; ring,
    fun y => by
      rw [line_bilinear]
      have h1 := mul_self_nonneg (y 0 - y 2)
      have h2 := mul_self_nonneg (y 2 - y 1)
      have h3 := mul_self_nonneg (y 1 - y 3)
      linarith⟩
/-- Newton's method changes the value at the hanging node. -/
example : iterate lineTrafo [(true, 1/2, ![0, 2, 77, 4])] ![5, 3, 100, 6] = ![5, 2, 7/2, 4] := by decide +kernel

/-- **C232** is false without the modifications if there are linear constraints, for every linear solver that solves the system: the value
at the hanging node stays as it is in the initial guess. -/
theorem C232_without_modifications_false (solve : Matrix (Fin 4) ℚ → (Fin 4 → ℚ) → Fin 4 → ℚ) (hs : Exact solve) :
    ∃ x', applyLinear lineTrafo false (fun _ => 0) linePattern lineParts solve false (fun _ => 1) = some x' ∧
      ¬ Galerkin lineTrafo lineParts x' := by
  obtain ⟨m, hm, hzc, hzf⟩ := correction lineTrafo_admissible false (fun _ => 0) linePattern lineParts linePattern_fits
    (fun _ i j => if i = j then 1 else -1) (fun _ _ => -1) line_affine line_regular solve hs (fun _ => 1)
  refine ⟨fun k => 1 - solve m (residual lineTrafo lineParts fun _ => 1) k, ?_, ?_⟩
  · unfold applyLinear
    simp only [Bool.false_eq_true, if_false, hm, Option.bind_eq_bind, Option.bind_some]
    rfl
  · generalize solve m (residual lineTrafo lineParts fun _ => 1) = z at hzc hzf
    intro hg
    have h0 := hzc 0 ⟨[], by simp [lineTrafo]⟩
    have h2 := hzc 2 ⟨_, by simp only [lineTrafo]; exact List.mem_cons_self⟩
    have e2 := hg.1 2 [(0, 1/2), (1, 1/2)] (by simp [lineTrafo]) (by simp)
    simp at e2
    rw [h0, h2] at e2
    have hw : Homogeneous lineTrafo ![0, 2, 1, 0] := by
      refine ⟨fun k row hm hn => ?_, fun k hk => ?_⟩
      · simp only [lineTrafo, List.mem_cons, Prod.mk.injEq, List.not_mem_nil, or_false] at hm
        rcases hm with ⟨rfl, rfl⟩ | ⟨rfl, rfl⟩
        · decide +kernel
        · exact absurd rfl hn
      · simp only [lineTrafo, Trafo.Dirichlet, List.mem_cons, Prod.mk.injEq, List.not_mem_nil, or_false] at hk
        rcases hk with ⟨_, hk⟩ | ⟨rfl, _⟩
        · exact absurd hk (by simp)
        · rfl
    have hw' : Homogeneous lineTrafo ![0, 0, 0, 1] := by
      refine ⟨fun k row hm hn => ?_, fun k hk => ?_⟩
      · simp only [lineTrafo, List.mem_cons, Prod.mk.injEq, List.not_mem_nil, or_false] at hm
        rcases hm with ⟨rfl, rfl⟩ | ⟨rfl, rfl⟩
        · decide +kernel
        · exact absurd rfl hn
      · simp only [lineTrafo, Trafo.Dirichlet, List.mem_cons, Prod.mk.injEq, List.not_mem_nil, or_false] at hk
        rcases hk with ⟨_, hk⟩ | ⟨rfl, _⟩
        · exact absurd hk (by simp)
        · rfl
    have f1 := hg.2 _ hw
    have f2 := hg.2 _ hw'
    rw [line_form] at f1 f2
    simp at f1 f2
    rw [h0, h2] at f1
    linarith

end Verif
