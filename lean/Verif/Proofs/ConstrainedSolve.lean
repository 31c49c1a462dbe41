import Verif.Spec.ConstrainedSolve
import Verif.Proofs.AssemblerUtilities
import Mathlib.LinearAlgebra.Matrix.ToLin
import Mathlib.LinearAlgebra.FiniteDimensional.Basic
/-
Helper lemmas for the solution of problems with constraints.
-/
namespace Verif.ConstrainedSolve
open Constraints Assembly

section Ring
variable {I F : Type} [DecidableEq I] [DecidableEq F] [CommRing F]

/-- Local vectors tested with `w`. -/
def pair (parts : List (Part I F)) (w : I → F) (L : Part I F → Nat → F) : F :=
  (parts.map fun p => ((List.range p.nv).map fun i => w (p.v i) * L p i).sum).sum

omit [DecidableEq I] [DecidableEq F] in
theorem form_eq (parts : List (Part I F)) (x w : I → F) : form parts x w = pair parts w fun p i => p.residual (p.read x) i := rfl

omit [DecidableEq I] [DecidableEq F] in
theorem pair_add_left (parts : List (Part I F)) (w w' : I → F) (L : Part I F → Nat → F) :
    pair parts (fun k => w k + w' k) L = pair parts w L + pair parts w' L := by
  simp only [pair, add_mul, List.sum_map_add]

omit [DecidableEq I] [DecidableEq F] in
theorem pair_smul_left (parts : List (Part I F)) (c : F) (w : I → F) (L : Part I F → Nat → F) :
    pair parts (fun k => c * w k) L = c * pair parts w L := by
  simp only [pair, mul_assoc, List.sum_map_mul_left]

omit [DecidableEq I] [DecidableEq F] in
theorem pair_zero_left (parts : List (Part I F)) (L : Part I F → Nat → F) : pair parts (fun _ => 0) L = 0 := by
  simp [pair]

omit [DecidableEq I] [DecidableEq F] in
theorem pair_add_right (parts : List (Part I F)) (w : I → F) (L L' : Part I F → Nat → F) :
    pair parts w (fun p i => L p i + L' p i) = pair parts w L + pair parts w L' := by
  simp only [pair, mul_add, List.sum_map_add]

omit [DecidableEq I] [DecidableEq F] in
theorem pair_smul_right (parts : List (Part I F)) (w : I → F) (c : F) (L : Part I F → Nat → F) :
    pair parts w (fun p i => c * L p i) = c * pair parts w L := by
  simp only [pair, mul_left_comm, List.sum_map_mul_left]

omit [DecidableEq I] [DecidableEq F] in
theorem pair_congr (parts : List (Part I F)) (w w' : I → F) (L L' : Part I F → Nat → F) (hw : ∀ k, w k = w' k)
    (hL : ∀ p ∈ parts, ∀ i < p.nv, L p i = L' p i) : pair parts w L = pair parts w' L' := by
  unfold pair
  congr 1
  apply List.map_congr_left
  intro p hp
  congr 1
  apply List.map_congr_left
  intro i hi
  rw [hw, hL p hp i (List.mem_range.mp hi)]

omit [DecidableEq I] [DecidableEq F] in
theorem pair_list_left {α : Type} (parts : List (Part I F)) (l : List α) (g : α → I → F) (L : Part I F → Nat → F) :
    pair parts (fun k => (l.map fun a => g a k).sum) L = (l.map fun a => pair parts (g a) L).sum := by
  induction l with
  | nil => simp [pair_zero_left]
  | cons a l ih => simp only [List.map_cons, List.sum_cons, pair_add_left, ih]

omit [DecidableEq I] [DecidableEq F] in
theorem pair_sum_left {α : Type} (parts : List (Part I F)) (s : Finset α) (g : α → I → F) (L : Part I F → Nat → F) :
    pair parts (fun k => ∑ a ∈ s, g a k) L = ∑ a ∈ s, pair parts (g a) L := by
  classical
  induction s using Finset.induction_on with
  | empty => simp [pair_zero_left]
  | insert a s ha ih => simp only [Finset.sum_insert ha, pair_add_left, ih]

omit [DecidableEq I] [DecidableEq F] in
theorem pair_sum_right {α : Type} (parts : List (Part I F)) (w : I → F) (s : Finset α) (L : α → Part I F → Nat → F) :
    pair parts w (fun p i => ∑ a ∈ s, L a p i) = ∑ a ∈ s, pair parts w (L a) := by
  classical
  induction s using Finset.induction_on with
  | empty => simp [pair]
  | insert a s ha ih => simp only [Finset.sum_insert ha, pair_add_right, ih]

omit [DecidableEq F] in
theorem addLocal_apply (x : I → F) (p : Part I F) (r : I → F) (k : I) :
    addLocal x r p k = r k + ((List.range p.nv).map fun i => (if p.v i = k then 1 else 0) * p.residual (p.read x) i).sum := by
  unfold addLocal
  generalize List.range p.nv = l
  induction l generalizing r with
  | nil => simp
  | cons i l ih =>
    simp only [List.foldl_cons, List.map_cons, List.sum_cons, ih, upd]
    by_cases h : k = p.v i
    · subst h; simp; ring
    · rw [if_neg h, if_neg (fun h' => h h'.symm)]; ring

omit [DecidableEq F] in
theorem assembled_apply (parts : List (Part I F)) (x r : I → F) (k : I) :
    parts.foldl (addLocal x) r k = r k + pair parts (fun k' => if k' = k then 1 else 0) fun p i => p.residual (p.read x) i := by
  induction parts generalizing r with
  | nil => simp [pair]
  | cons p ps ih =>
    rw [List.foldl_cons, ih, addLocal_apply]
    simp only [pair, List.map_cons, List.sum_cons]
    ring

/-- The rows with coefficients. -/
def linearRows (t : Trafo I F) : List (I × List (I × F)) := t.rows.filter fun c => !c.2.isEmpty

omit [DecidableEq I] [DecidableEq F] [CommRing F] in
theorem mem_linearRows (t : Trafo I F) (c : I × List (I × F)) : c ∈ linearRows t ↔ c ∈ t.rows ∧ c.2 ≠ [] := by
  unfold linearRows
  rw [List.mem_filter]
  obtain ⟨k, row⟩ := c
  cases row <;> simp

omit [DecidableEq F] in
theorem foldl_linearRows (f : (I → F) → I × List (I × F) → I → F) (hf : ∀ x k, f x (k, []) = x) (t : Trafo I F) (x : I → F) :
    t.rows.foldl f x = (linearRows t).foldl f x := by
  unfold linearRows
  rw [List.foldl_filter]
  congr 1
  funext x c
  obtain ⟨k, row⟩ := c
  cases row with
  | nil => simp [hf]
  | cons e row => simp

/-- A linearly constrained degree of freedom. -/
def Linear (t : Trafo I F) (k : I) : Prop := ∃ row, (k, row) ∈ t.rows ∧ row ≠ []

omit [DecidableEq F] in
theorem not_linear_of_dirichlet {t : Trafo I F} (h : Admissible t) {k : I} (hk : t.Dirichlet k) : ¬ Linear t k := by
  rintro ⟨row, hr, hn⟩
  have h1 := (find?_iff_mem k row _ h.keys).mpr hr
  have h2 := (find?_iff_mem k [] _ h.keys).mpr hk
  rw [h2] at h1
  exact hn (Option.some.inj h1).symm

omit [DecidableEq F] in
theorem kinds {t : Trafo I F} (h : Admissible t) (k : I) :
    (find? k t.rows = none ∧ ¬ t.Constrained k) ∨ (find? k t.rows = some [] ∧ t.Dirichlet k) ∨
      ∃ e row, find? k t.rows = some (e :: row) ∧ (k, e :: row) ∈ t.rows := by
  rcases hf : find? k t.rows with _ | _ | ⟨e, row⟩
  · exact Or.inl ⟨rfl, fun ⟨row, hr⟩ => (find?_none_iff k t.rows).mp hf row hr⟩
  · exact Or.inr (Or.inl ⟨rfl, (find?_iff_mem k [] _ h.keys).mp hf⟩)
  · exact Or.inr (Or.inr ⟨e, row, rfl, (find?_iff_mem k _ _ h.keys).mp hf⟩)

omit [DecidableEq F] in
theorem coef_linear {t : Trafo I F} (h : Admissible t) {k : I} {row : List (I × F)} (hr : (k, row) ∈ t.rows) {r : I}
    (hl : Linear t r) : coef row r = 0 := by
  apply List.sum_eq_zero
  intro y hy
  obtain ⟨e, he, rfl⟩ := List.mem_map.mp hy
  rw [if_neg]
  intro e'
  obtain ⟨row', hr', hn⟩ := hl
  exact hn (h.chains k row hr e he row' (by rw [e']; exact hr'))

omit [DecidableEq F] in
theorem linearRows_keys {t : Trafo I F} (h : Admissible t) : ((linearRows t).map Prod.fst).Nodup :=
  h.keys.sublist (List.Sublist.map _ List.filter_sublist)

omit [DecidableEq F] in
/-- `backtransform` without restriction. -/
theorem back_spec {t : Trafo I F} (h : Admissible t) (y : I → F) :
    (∀ k, ¬ Linear t k → backTransform t false y k = y k) ∧
    (∀ k row, (k, row) ∈ t.rows → row ≠ [] → backTransform t false y k = y k + (row.map fun e => e.2 * y e.1).sum) := by
  have he : backTransform t false y = (linearRows t).foldl (backCol false) y :=
    foldl_linearRows (backCol false) (fun x k => by simp [backCol]) t y
  have hb := back_apply false (Linear t) (linearRows t) (linearRows_keys h)
    (fun c hc => ⟨c.2, ((mem_linearRows t c).mp hc).1, ((mem_linearRows t c).mp hc).2⟩)
    (fun c hc e he ⟨row', hr', hn⟩ => hn (h.chains c.1 c.2 ((mem_linearRows t c).mp hc).1 e he row' hr')) y
  constructor
  · intro k hk
    rw [he, hb k]
    have : (linearRows t).map (fun c => if c.1 = k then rowDot c.2 y else 0) = (linearRows t).map fun _ => (0 : F) := by
      apply List.map_congr_left
      intro c hc
      rw [if_neg]
      intro e
      have := (mem_linearRows t c).mp hc
      exact hk ⟨c.2, by rw [← e]; exact this.1, this.2⟩
    rw [this]
    simp
  · intro k row hr hn
    rw [he, hb k]
    have hmem : (k, row) ∈ linearRows t := (mem_linearRows t _).mpr ⟨hr, hn⟩
    have hnd := linearRows_keys h
    have : ((linearRows t).map fun c => if c.1 = k then rowDot c.2 y else 0).sum = rowDot row y := by
      generalize linearRows t = l at hmem hnd
      induction l with
      | nil => cases hmem
      | cons c l ih =>
        simp only [List.map_cons, List.sum_cons, List.nodup_cons] at hnd ⊢
        rcases List.mem_cons.mp hmem with e | e
        · subst e
          have hz : l.map (fun c => if c.1 = k then rowDot c.2 y else 0) = l.map fun _ => (0 : F) := by
            apply List.map_congr_left
            intro c hc
            rw [if_neg]
            intro e
            exact hnd.1 (List.mem_map.mpr ⟨c, hc, e⟩)
          rw [hz]
          simp
        · rw [if_neg, ih e hnd.2, zero_add]
          intro e'
          exact hnd.1 (List.mem_map.mpr ⟨(k, row), e, e'.symm⟩)
    rw [this]
    simp [rowDot]

omit [DecidableEq F] in
theorem testWeight_eq {t : Trafo I F} (h : Admissible t) (k r : I) (hr : ¬ t.Constrained r) :
    testWeight t k r = (if k = r then 1 else 0) + ((linearRows t).map fun c => coef c.2 r * if k = c.1 then 1 else 0).sum := by
  unfold testWeight
  have hnd := linearRows_keys h
  rcases kinds h k with ⟨hf, hc⟩ | ⟨hf, hd⟩ | ⟨e, row, hf, hm⟩
  · rw [hf]
    have : (linearRows t).map (fun c => coef c.2 r * if k = c.1 then 1 else 0) = (linearRows t).map fun _ => (0 : F) := by
      apply List.map_congr_left
      intro c hc'
      rw [if_neg, mul_zero]
      intro e
      exact hc ⟨c.2, by rw [e]; exact ((mem_linearRows t c).mp hc').1⟩
    rw [this]; simp
  · rw [hf]
    have : (linearRows t).map (fun c => coef c.2 r * if k = c.1 then 1 else 0) = (linearRows t).map fun _ => (0 : F) := by
      apply List.map_congr_left
      intro c hc'
      rw [if_neg, mul_zero]
      intro e
      have := (mem_linearRows t c).mp hc'
      exact not_linear_of_dirichlet h hd ⟨c.2, by rw [e]; exact this.1, this.2⟩
    rw [this, if_neg]
    · simp
    · rintro rfl; exact hr ⟨[], hd⟩
  · rw [hf]
    have hmem : (k, e :: row) ∈ linearRows t := (mem_linearRows t _).mpr ⟨hm, by simp⟩
    rw [if_neg (by rintro rfl; exact hr ⟨_, hm⟩), zero_add]
    generalize linearRows t = l at hmem hnd
    simp only
    induction l with
    | nil => cases hmem
    | cons c l ih =>
      simp only [List.map_cons, List.sum_cons, List.nodup_cons] at hnd ⊢
      rcases List.mem_cons.mp hmem with e' | e'
      · subst e'
        have hz : l.map (fun c => coef c.2 r * if k = c.1 then 1 else 0) = l.map fun _ => (0 : F) := by
          apply List.map_congr_left
          intro c hc
          rw [if_neg, mul_zero]
          intro e
          exact hnd.1 (List.mem_map.mpr ⟨c, hc, e.symm⟩)
        rw [hz]
        simp
      · rw [if_neg, mul_zero, ← ih e' hnd.2, zero_add]
        intro e''
        exact hnd.1 (List.mem_map.mpr ⟨(k, e :: row), e', e''⟩)

omit [DecidableEq F] in
/-- The entry of the residual at an unconstrained degree of freedom is the form tested with its (transformed) test function. -/
theorem residual_free {t : Trafo I F} (h : Admissible t) (parts : List (Part I F)) (x : I → F) (r : I) (hr : ¬ t.Constrained r) :
    residual t parts x r = form parts x fun k => testWeight t k r := by
  have hz := (setConstrained_apply t (0 : F) (t.rows.foldl distributeCol (parts.foldl (addLocal x) fun _ => 0)) r).2 hr
  have e : residual t parts x r = t.rows.foldl distributeCol (parts.foldl (addLocal x) fun _ => 0) r := hz
  rw [e, foldl_linearRows distributeCol (fun x k => by simp [distributeCol]) t,
    distribute_apply (Linear t) (linearRows t)
      (fun c hc => ⟨c.2, ((mem_linearRows t c).mp hc).1, ((mem_linearRows t c).mp hc).2⟩)
      (fun c hc e he ⟨row', hr', hn⟩ => hn (h.chains c.1 c.2 ((mem_linearRows t c).mp hc).1 e he row' hr'))]
  simp only [assembled_apply, zero_add]
  rw [form_eq, pair_congr parts _ _ _ _ (fun k => testWeight_eq h k r hr) (fun _ _ _ _ => rfl), pair_add_left,
    pair_list_left parts (linearRows t) (fun c k => coef c.2 r * if k = c.1 then 1 else 0)]
  simp only [pair_smul_left]

omit [DecidableEq F] in
theorem residual_constrained (t : Trafo I F) (parts : List (Part I F)) (x : I → F) (r : I) (hr : t.Constrained r) :
    residual t parts x r = 0 :=
  (setConstrained_apply t (0 : F) _ r).1 hr

omit [DecidableEq F] in
/-- The transformed test functions of unconstrained degrees of freedom are test functions. -/
theorem testWeight_homogeneous {t : Trafo I F} (h : Admissible t) (r : I) (hr : ¬ t.Constrained r) :
    Homogeneous t fun k => testWeight t k r := by
  have hd : ∀ k, t.Dirichlet k → testWeight t k r = 0 := by
    intro k hk
    unfold testWeight
    rw [(find?_iff_mem k [] _ h.keys).mpr hk]
  refine ⟨fun k row hm hn => ?_, hd⟩
  have hf := (find?_iff_mem k row _ h.keys).mpr hm
  have e : testWeight t k r = coef row r := by
    unfold testWeight
    rw [hf]
    cases row with
    | nil => exact absurd rfl hn
    | cons e row => rfl
  change testWeight t k r = (row.map fun e => e.2 * testWeight t e.1 r).sum
  rw [e]
  unfold coef
  congr 1
  apply List.map_congr_left
  intro e' he'
  rcases kinds h e'.1 with ⟨hf', hc⟩ | ⟨hf', hd'⟩ | ⟨e2, row2, hf', hm'⟩
  · have : testWeight t e'.1 r = if e'.1 = r then 1 else 0 := by unfold testWeight; rw [hf']
    rw [this]
    by_cases h' : e'.1 = r
    · rw [if_pos h', if_pos h', mul_one]
    · rw [if_neg h', if_neg h', mul_zero]
  · rw [hd _ hd', mul_zero, if_neg]
    intro e; exact hr ⟨[], by rw [← e]; exact hd'⟩
  · exact absurd (h.chains k row hm e' he' _ hm') (by simp)

section Fin
variable [Fintype I]

omit [DecidableEq F] in
theorem sum_coef (row : List (I × F)) (y : I → F) : ∑ c, coef row c * y c = (row.map fun e => e.2 * y e.1).sum := by
  induction row with
  | nil => simp [coef]
  | cons e row ih =>
    have : ∀ c, coef (e :: row) c = (if e.1 = c then e.2 else 0) + coef row c := fun c => by simp [coef]
    simp only [this, add_mul, Finset.sum_add_distrib, ih, List.map_cons, List.sum_cons]
    congr 1
    simp

omit [DecidableEq F] in
/-- A test function is the combination of the transformed test functions with its own values. -/
theorem homogeneous_expand {t : Trafo I F} (h : Admissible t) (w : I → F) (hw : Homogeneous t w) (k : I) :
    w k = ∑ r, w r * testWeight t k r := by
  unfold testWeight
  rcases kinds h k with ⟨hf, hc⟩ | ⟨hf, hd⟩ | ⟨e, row, hf, hm⟩
  · rw [hf]; simp
  · rw [hf, hw.2 k hd]; simp
  · rw [hf]
    simp only
    rw [hw.1 k _ hm (by simp), ← sum_coef]
    exact Finset.sum_congr rfl fun c _ => mul_comm _ _

omit [DecidableEq F] [Fintype I] in
theorem testWeight_constrained {t : Trafo I F} (h : Admissible t) (w : I → F) (hw : Homogeneous t w) (r : I) (hr : t.Constrained r)
    (k : I) : w r * testWeight t k r = 0 := by
  obtain ⟨row, hm⟩ := hr
  cases row with
  | nil => rw [hw.2 r hm, zero_mul]
  | cons e row =>
    have hl : Linear t r := ⟨_, hm, by simp⟩
    have : testWeight t k r = 0 := by
      unfold testWeight
      rcases kinds h k with ⟨hf, hc⟩ | ⟨hf, hd⟩ | ⟨e', row', hf, hm'⟩
      · rw [hf]
        simp only
        rw [if_neg]
        rintro rfl; exact hc ⟨_, hm⟩
      · rw [hf]
      · rw [hf]; exact coef_linear h hm' hl
    rw [this, mul_zero]

omit [DecidableEq F] in
/-- Local vectors tested with a test function. -/
theorem pair_homogeneous {t : Trafo I F} (h : Admissible t) (parts : List (Part I F)) (w : I → F) (hw : Homogeneous t w)
    (L : Part I F → Nat → F) (g : I → F) (hg : ∀ r, ¬ t.Constrained r → g r = pair parts (fun k => testWeight t k r) L) :
    pair parts w L = ∑ r, if find? r t.rows = none then w r * g r else 0 := by
  rw [pair_congr parts w _ L L (homogeneous_expand h w hw) (fun _ _ _ _ => rfl), pair_sum_left]
  refine Finset.sum_congr rfl fun r _ => ?_
  by_cases hr : t.Constrained r
  · rw [pair_congr parts _ (fun _ => 0) L L (testWeight_constrained h w hw r hr) (fun _ _ _ _ => rfl), pair_zero_left, if_neg]
    obtain ⟨row, hm⟩ := hr
    intro hn
    exact (find?_none_iff r t.rows).mp hn row hm
  · rw [pair_smul_left, ← hg r hr, if_pos]
    exact (find?_none_iff r t.rows).mpr fun row hm => hr ⟨row, hm⟩

omit [DecidableEq F] in
/-- The residual represents the form on the test space. -/
theorem form_residual {t : Trafo I F} (h : Admissible t) (parts : List (Part I F)) (x w : I → F) (hw : Homogeneous t w) :
    form parts x w = ∑ r, w r * residual t parts x r := by
  rw [form_eq, pair_homogeneous h parts w hw (fun p i => p.residual (p.read x) i) (residual t parts x)
    (fun r hr => residual_free h parts x r hr)]
  refine Finset.sum_congr rfl fun r _ => ?_
  rcases kinds h r with ⟨hf, hc⟩ | ⟨hf, hd⟩ | ⟨e', row', hf, hm'⟩
  · rw [if_pos hf]
  · rw [hf, residual_constrained t parts x r ⟨_, hd⟩]; simp
  · rw [hf, residual_constrained t parts x r ⟨_, hm'⟩]; simp

omit [DecidableEq F] in
theorem galerkin_iff {t : Trafo I F} (h : Admissible t) (parts : List (Part I F)) (x : I → F) :
    Galerkin t parts x ↔ Conforming t x ∧ ∀ r, residual t parts x r = 0 := by
  constructor
  · rintro ⟨h1, h2⟩
    refine ⟨h1, fun r => ?_⟩
    by_cases hr : t.Constrained r
    · exact residual_constrained t parts x r hr
    · rw [residual_free h parts x r hr]
      exact h2 _ (testWeight_homogeneous h r hr)
  · rintro ⟨h1, h2⟩
    refine ⟨h1, fun w hw => ?_⟩
    rw [form_residual h parts x w hw]
    exact Finset.sum_eq_zero fun r _ => by rw [h2, mul_zero]

/-- The matrix-vector product with the local matrices. -/
def localProduct (A : Part I F → Nat → Nat → F) (y : I → F) (p : Part I F) (i : Nat) : F :=
  ((List.range p.nu).map fun j => A p i j * y (p.u j)).sum

omit [DecidableEq F] in
theorem trial_expand {t : Trafo I F} (h : Admissible t) (symmetric : Bool) (z : I → F) (hz : ∀ k, t.Constrained k → z k = 0) (k : I) :
    ∑ c, trialWeight t symmetric k c * z c = backTransform t false z k := by
  unfold trialWeight
  rcases kinds h k with ⟨hf, hc⟩ | ⟨hf, hd⟩ | ⟨e, row, hf, hm⟩
  · rw [hf, (back_spec h z).1 k (fun ⟨row, hr, _⟩ => hc ⟨row, hr⟩)]; simp
  · rw [hf, (back_spec h z).1 k (not_linear_of_dirichlet h hd), hz k ⟨_, hd⟩]
    cases symmetric <;> simp
    exact hz k ⟨_, hd⟩
  · rw [hf, (back_spec h z).2 k _ hm (by simp), hz k ⟨_, hm⟩, zero_add]
    exact sum_coef _ _

omit [DecidableEq F] in
theorem list_sum_comm {α β : Type} (l : List α) (s : Finset β) (f : α → β → F) :
    ∑ c ∈ s, (l.map fun a => f a c).sum = (l.map fun a => ∑ c ∈ s, f a c).sum := by
  induction l with
  | nil => simp
  | cons a l ih => simp only [List.map_cons, List.sum_cons, Finset.sum_add_distrib, ih]

omit [DecidableEq F] in
/-- A row of an unconstrained degree of freedom of the Jacobian times a correction. -/
theorem jacobian_row {t : Trafo I F} (h : Admissible t) (symmetric : Bool) (parts : List (Part I F)) (x : I → F)
    (A : Part I F → Nat → Nat → F) (hA : ∀ p ∈ parts, p.jacobian (p.read x) = A p)
    (z : I → F) (hz : ∀ k, t.Constrained k → z k = 0) (r : I) :
    ∑ c, jacobianEntry t t symmetric (parts.map fun p => p.matrix x) r c * z c
      = pair parts (fun k => testWeight t k r) (localProduct A (backTransform t false z)) := by
  unfold jacobianEntry pair localProduct
  simp only [List.map_map, ← List.sum_map_mul_right]
  rw [list_sum_comm]
  congr 1
  apply List.map_congr_left
  intro p hp
  simp only [Function.comp, Part.matrix, hA p hp, ← List.sum_map_mul_right]
  rw [list_sum_comm]
  congr 1
  apply List.map_congr_left
  intro i _
  rw [list_sum_comm, ← List.sum_map_mul_left]
  congr 1
  apply List.map_congr_left
  intro j _
  rw [← trial_expand h symmetric z hz, Finset.mul_sum, Finset.mul_sum]
  exact Finset.sum_congr rfl fun c _ => by ring

end Fin

omit [DecidableEq F] in
theorem form_affine (parts : List (Part I F)) (A : Part I F → Nat → Nat → F) (b : Part I F → Nat → F)
    (ha : ∀ p ∈ parts, Affine p (A p) (b p)) (x w : I → F) :
    form parts x w = pair parts w b + pair parts w (localProduct A x) := by
  rw [form_eq, ← pair_add_right]
  refine pair_congr parts w w _ _ (fun _ => rfl) fun p hp i hi => ?_
  exact ((ha p hp) (p.read x)).2 i hi

omit [DecidableEq F] in
theorem bilinear_affine (parts : List (Part I F)) (A : Part I F → Nat → Nat → F) (b : Part I F → Nat → F)
    (ha : ∀ p ∈ parts, Affine p (A p) (b p)) (x w : I → F) :
    bilinear parts x w = pair parts w (localProduct A x) := by
  unfold bilinear
  rw [form_affine parts A b ha, form_affine parts A b ha]
  have : pair parts w (localProduct A fun _ => 0) = 0 := by
    rw [pair_congr parts w w _ (fun p i => 0 * 0) (fun _ => rfl) (fun p _ i _ => by simp [localProduct]), pair_smul_right, zero_mul]
  rw [this]; ring

omit [DecidableEq F] in
theorem localProduct_sub (A : Part I F → Nat → Nat → F) (x y : I → F) (p : Part I F) (i : Nat) :
    localProduct A (fun k => x k - y k) p i = localProduct A x p i + (-1) * localProduct A y p i := by
  unfold localProduct
  rw [← List.sum_map_mul_left, ← List.sum_map_add]
  congr 1
  apply List.map_congr_left
  intro j _
  ring

omit [DecidableEq F] in
theorem bilinear_sub (parts : List (Part I F)) (A : Part I F → Nat → Nat → F) (b : Part I F → Nat → F)
    (ha : ∀ p ∈ parts, Affine p (A p) (b p)) (x y w : I → F) :
    bilinear parts (fun k => x k - y k) w = bilinear parts x w - bilinear parts y w := by
  rw [bilinear_affine parts A b ha, bilinear_affine parts A b ha, bilinear_affine parts A b ha,
    pair_congr parts w w _ _ (fun _ => rfl) (fun p _ i _ => localProduct_sub A x y p i), pair_add_right, pair_smul_right]
  ring

omit [DecidableEq F] in
theorem form_sub_right (parts : List (Part I F)) (x w w' : I → F) :
    form parts x (fun k => w k - w' k) = form parts x w - form parts x w' := by
  rw [form_eq, form_eq, form_eq, pair_congr parts _ (fun k => w k + (-1) * w' k) _ _ (fun k => by ring) (fun _ _ _ _ => rfl),
    pair_add_left, pair_smul_left]
  ring

omit [DecidableEq F] in
theorem bilinear_sub_right (parts : List (Part I F)) (x w w' : I → F) :
    bilinear parts x (fun k => w k - w' k) = bilinear parts x w - bilinear parts x w' := by
  unfold bilinear
  rw [form_sub_right, form_sub_right]
  ring

omit [DecidableEq F] in
theorem conforming_sub {t : Trafo I F} {x y : I → F} (hx : Conforming t x) (hy : Conforming t y) : Conforming t fun k => x k - y k := by
  intro k row hm hn
  simp only
  rw [hx k row hm hn, hy k row hm hn]
  have : ∀ e : I × F, e.2 * (x e.1 - y e.1) = e.2 * x e.1 + (-1) * (e.2 * y e.1) := fun e => by ring
  simp only [this, List.sum_map_add, List.sum_map_mul_left]
  ring

omit [DecidableEq F] in
/-- Vectors that vanish at linearly constrained degrees of freedom become conforming. -/
theorem back_conforming {t : Trafo I F} (h : Admissible t) (y : I → F) (hy : ∀ k, Linear t k → y k = 0) :
    Conforming t (backTransform t false y) := by
  intro k row hm hn
  rw [(back_spec h y).2 k row hm hn, hy k ⟨row, hm, hn⟩, zero_add]
  congr 1
  apply List.map_congr_left
  intro e he
  rw [(back_spec h y).1]
  rintro ⟨row', hr', hn'⟩
  exact hn' (h.chains k row hm e he row' hr')

omit [DecidableEq F] in
/-- Conforming vectors are determined by their other values. -/
theorem conforming_ext {t : Trafo I F} (h : Admissible t) {x y : I → F} (hx : Conforming t x) (hy : Conforming t y)
    (he : ∀ k, ¬ Linear t k → x k = y k) : x = y := by
  funext k
  by_cases hk : Linear t k
  · obtain ⟨row, hm, hn⟩ := hk
    rw [hx k row hm hn, hy k row hm hn]
    congr 1
    apply List.map_congr_left
    intro e he'
    rw [he]
    rintro ⟨row', hr', hn'⟩
    exact hn' (h.chains k row hm e he' row' hr')
  · exact he k hk

omit [DecidableEq F] in
theorem linear_constrained {t : Trafo I F} {k : I} (h : Linear t k) : t.Constrained k := by
  obtain ⟨row, hm, _⟩ := h
  exact ⟨row, hm⟩

omit [DecidableEq F] in
theorem shifted_linear {t : Trafo I F} (h : Admissible t) (x : I → F) (k : I) (hk : Linear t k) : setShifted t 0 x k = 0 :=
  (setShifted_apply t 0 x k).2 fun hd => not_linear_of_dirichlet h hd hk

omit [DecidableEq F] in
/-- The modifications of Newton's method. -/
theorem interpolate_spec {t : Trafo I F} (h : Admissible t) (x : I → F) :
    Conforming t (interpolate t x) ∧ ∀ k, ¬ Linear t k → interpolate t x k = x k := by
  constructor
  · apply back_conforming h
    intro k hk
    rw [(copyConstrained_apply t _ _ k).1 (linear_constrained hk), shifted_linear h x k hk]
  · intro k hk
    unfold interpolate
    rw [(back_spec h _).1 k hk]
    by_cases hc : t.Constrained k
    · rw [(copyConstrained_apply t _ _ k).1 hc, (setShifted_apply t 0 x k).1]
      obtain ⟨row, hm⟩ := hc
      cases row with
      | nil => exact hm
      | cons e row => exact absurd ⟨_, hm, by simp⟩ hk
    · rw [(copyConstrained_apply t _ _ k).2 hc, (setConstrained_apply t 0 x k).2 hc]

end Ring

section Field
variable {I F : Type} [DecidableEq I] [DecidableEq F] [Field F] [Fintype I]

omit [Fintype I] in
/-- The rows of the assembled Jacobian. -/
theorem jacobian_rows {t : Trafo I F} (h : Admissible t) (symmetric : Bool) (ci0 : Nat → I) (pattern : List (PatternPart I))
    (parts : List (Part I F)) (hp : PatternFits t pattern parts) (x : I → F) :
    ∃ m, jacobian t symmetric ci0 pattern parts x = some m ∧ (∀ r, t.Constrained r → ∀ c, m.val r c = if c = r then 1 else 0) ∧
      ∀ r, ¬ t.Constrained r → ∀ c, m.val r c = jacobianEntry t t symmetric (parts.map fun p => p.matrix x) r c := by
  obtain ⟨m0, hm, hpat, hs⟩ := assembleJacobian_eq t t symmetric ci0 pattern (parts.map fun p => p.matrix x) h.flag hp.valid (hp.covered x)
  refine ⟨_, hm, ?_, ?_⟩
  · intro r hr c
    obtain ⟨row, hrow⟩ := hr
    have hne : find? r t.rows ≠ none := fun h => (find?_none_iff r t.rows).mp h row hrow
    have hin : (r, r) ∈ m0.pattern := by
      obtain ⟨q, hq, l, hl, e1, e2⟩ := hp.diagonal r ⟨row, hrow⟩
      rw [hpat]
      refine assemblePattern_mem t t _ pattern _ _ rfl rfl (fun _ _ => rfl) (fun _ _ => rfl) hp.valid q hq l hl _ ?_
      rw [e1, e2]
      unfold linksOf addDiagonalEntry
      simp
    have h2 := (setTrivialRows_apply t.rows m0).2 r c
    unfold setTrivialRows
    rw [h2, if_pos hne]
    simp [hin]
  · intro r hr c
    have hn : find? r t.rows = none := (find?_none_iff r t.rows).mpr fun v hv => hr ⟨v, hv⟩
    have h2 := (setTrivialRows_apply t.rows m0).2 r c
    unfold setTrivialRows
    rw [h2, if_neg (fun h => h hn), hs]
    unfold jacobianEntry
    congr 1
    apply List.map_congr_left
    intro p _
    congr 1
    apply List.map_congr_left
    intro i _
    congr 1
    apply List.map_congr_left
    intro j _
    exact weights_eq t t symmetric h.flag h.flag p i j r c hn

/-- The correction computed by the linear solver vanishes at constrained degrees of freedom and fulfils the equations of the
unconstrained ones. -/
theorem correction {t : Trafo I F} (h : Admissible t) (symmetric : Bool) (ci0 : Nat → I) (pattern : List (PatternPart I))
    (parts : List (Part I F)) (hp : PatternFits t pattern parts) (A : Part I F → Nat → Nat → F) (b : Part I F → Nat → F)
    (ha : ∀ p ∈ parts, Affine p (A p) (b p)) (hreg : Regular t parts) (solve : Matrix I F → (I → F) → I → F)
    (hs : Exact solve) (x : I → F) :
    ∃ m, jacobian t symmetric ci0 pattern parts x = some m ∧
      (∀ k, t.Constrained k → solve m (residual t parts x) k = 0) ∧
      ∀ r, ¬ t.Constrained r → pair parts (fun k => testWeight t k r)
        (localProduct A (backTransform t false (solve m (residual t parts x)))) = residual t parts x r := by
  obtain ⟨m, hm, hc, hf⟩ := jacobian_rows h symmetric ci0 pattern parts hp x
  refine ⟨m, hm, ?_⟩
  have hrow : ∀ (z : I → F) k, t.Constrained k → ∑ c, m.val k c * z c = z k := by
    intro z k hk
    simp [hc k hk]
  have hfree : ∀ (z : I → F), (∀ k, t.Constrained k → z k = 0) → ∀ r, ¬ t.Constrained r →
      ∑ c, m.val r c * z c = pair parts (fun k => testWeight t k r) (localProduct A (backTransform t false z)) := by
    intro z hz r hr
    rw [← jacobian_row h symmetric parts x A (fun p hp => (ha p hp _).1) z hz r]
    exact Finset.sum_congr rfl fun c _ => by rw [hf r hr]
  have hinj : ∀ z : I → F, (∀ i, ∑ c, m.val i c * z c = 0) → z = 0 := by
    intro z hz
    have hzc : ∀ k, t.Constrained k → z k = 0 := fun k hk => by rw [← hrow z k hk]; exact hz k
    have hy : Homogeneous t (backTransform t false z) :=
      ⟨back_conforming h z fun k hk => hzc k (linear_constrained hk),
        fun k hk => by rw [(back_spec h z).1 k (not_linear_of_dirichlet h hk)]; exact hzc k ⟨_, hk⟩⟩
    have h0 := hreg _ hy (fun w hw => by
      rw [bilinear_affine parts A b ha, pair_homogeneous h parts w hw _ (fun _ => 0)
        (fun r hr => by rw [← hfree z hzc r hr, hz r])]
      simp)
    funext k
    by_cases hk : Linear t k
    · exact hzc k (linear_constrained hk)
    · rw [← (back_spec h z).1 k hk]; exact h0 k
  have hsol := hs m (residual t parts x) (by
    let f : (I → F) →ₗ[F] (I → F) := Matrix.mulVecLin (Matrix.of m.val)
    have happ : ∀ z i, f z i = ∑ c, m.val i c * z c := fun z i => rfl
    have hfi : Function.Injective f := by
      rw [← LinearMap.ker_eq_bot, LinearMap.ker_eq_bot']
      intro z hz
      exact hinj z fun i => by rw [← happ, hz]; rfl
    obtain ⟨z, hz⟩ := LinearMap.injective_iff_surjective.mp hfi (residual t parts x)
    exact ⟨z, fun i => by rw [← happ, hz]⟩)
  have hzc : ∀ k, t.Constrained k → solve m (residual t parts x) k = 0 := by
    intro k hk
    rw [← hrow (solve m (residual t parts x)) k hk, hsol k]
    exact residual_constrained t parts x k hk
  exact ⟨hzc, fun r hr => by rw [← hfree _ hzc r hr]; exact hsol r⟩

omit [DecidableEq F] in
/-- A conforming vector minus the transformed correction solves the discrete problem. -/
theorem corrected {t : Trafo I F} (h : Admissible t) (parts : List (Part I F)) (A : Part I F → Nat → Nat → F)
    (b : Part I F → Nat → F) (ha : ∀ p ∈ parts, Affine p (A p) (b p)) (x z : I → F)
    (hx : Conforming t x) (hz : ∀ k, t.Constrained k → z k = 0)
    (hr : ∀ r, ¬ t.Constrained r → pair parts (fun k => testWeight t k r) (localProduct A (backTransform t false z))
      = residual t parts x r) :
    Galerkin t parts fun k => x k - backTransform t false z k := by
  rw [galerkin_iff h]
  refine ⟨conforming_sub hx (back_conforming h z fun k hk => hz k (linear_constrained hk)), fun r => ?_⟩
  by_cases hc : t.Constrained r
  · exact residual_constrained t parts _ r hc
  · have e := residual_free h parts x r hc
    rw [form_affine parts A b ha] at e
    rw [residual_free h parts _ r hc, form_affine parts A b ha,
      pair_congr parts _ _ _ _ (fun _ => rfl) (fun p _ i _ => localProduct_sub A x (backTransform t false z) p i),
      pair_add_right, pair_smul_right, hr r hc, e]
    ring

omit [DecidableEq F] [Fintype I] in
theorem galerkin_unique {t : Trafo I F} (parts : List (Part I F)) (A : Part I F → Nat → Nat → F)
    (b : Part I F → Nat → F) (ha : ∀ p ∈ parts, Affine p (A p) (b p)) (hreg : Regular t parts) (x y : I → F)
    (hx : Galerkin t parts x) (hy : Galerkin t parts y) (hd : ∀ k, t.Dirichlet k → x k = y k) : x = y := by
  funext k
  have := hreg (fun k => x k - y k) ⟨conforming_sub hx.1 hy.1, fun k hk => by simp only [hd k hk, sub_self]⟩ (fun w hw => by
    rw [bilinear_sub parts A b ha]
    unfold bilinear
    rw [hx.2 w hw, hy.2 w hw]; ring) k
  exact sub_eq_zero.mp this

end Field

end Verif.ConstrainedSolve
