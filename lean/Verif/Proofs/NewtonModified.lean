import Verif.Model.NewtonModified
import Verif.Proofs.NewtonSolve
import Mathlib.Algebra.Module.LinearMap.Defs
/-
The Newton solver with modifications is the Newton solver without, with modified corrections.
-/
namespace Verif.NewtonModified
open Newton Newton.Spec

variable {K X : Type} [Field K] [LinearOrder K] [AddCommGroup X] [Module K X]

/-- The problem whose corrections are modified. -/
def modified (modify : X → X) (P : Problem K X) : Problem K X :=
  { P with solve := fun z y red => ((P.solve z y red).1, modify (P.solve z y red).2.1, (P.solve z y red).2.2) }

theorem update_sim (L : X →ₗ[K] X) (P : Problem K X) (y c : X) (hy : L y = y) (l : K) :
    update L P (y - l • c) = Newton.update (modified L P) (y - l • L c) := by
  unfold update Newton.update modified
  rw [map_sub, map_smul, hy]

theorem update_fixed (L : X →ₗ[K] X) (P : Problem K X) (y : X) (hy : L y = y) : update L P y = Newton.update (modified L P) y := by
  unfold update Newton.update modified
  rw [hy]

theorem hrLoop_sim (L : X →ₗ[K] X) (P : Problem K X) (c : X) (d : K) (prev : LS K X) (hp : L prev.solution = prev.solution) :
    ∀ (n : Nat) (s : HR K X), s.cur.solution = prev.solution → hrLoop L P c d prev n s = Newton.hrLoop (modified L P) (L c) d prev n s
  | 0, s, _ => rfl
  | n + 1, s, h => by
    unfold hrLoop Newton.hrLoop
    rw [update_sim L P _ _ (by rw [h]; exact hp)]
    dsimp only
    split
    · rfl
    · exact hrLoop_sim L P c d prev hp n _ rfl

theorem lineSearch_sim (L : X →ₗ[K] X) (P : Problem K X) (q : Params K) (cur : LS K X) (c : X) (hc : L cur.solution = cur.solution) :
    lineSearch L P q cur c = Newton.lineSearch (modified L P) q cur (L c) := by
  unfold lineSearch Newton.lineSearch
  cases q.lineSearch with
  | none =>
    dsimp only
    rw [update_sim L P _ _ hc]
  | hackbuschReusken n d b =>
    dsimp only
    unfold hackbuschReusken Newton.hackbuschReusken
    dsimp only
    rw [update_sim L P _ _ hc, update_fixed L P _ hc, hrLoop_sim L P c _ cur hc _ _ rfl, update_sim L P _ _ hc]

theorem prepareStep_sim (L : X →ₗ[K] X) (P : Problem K X) (q : Params K) (s : State K X) (hs : L s.solution = s.solution) :
    prepareStep L P q s = Newton.prepareStep (modified L P) q s := by
  unfold prepareStep Newton.prepareStep
  rw [hs]
  rfl

theorem loop_sim (L : X →ₗ[K] X) (hL : ∀ y, L (L y) = L y) (P : Problem K X) (q : Params K) : ∀ (n : Nat) (s : State K X),
    L s.solution = s.solution → loop L P q n s = Newton.loop (modified L P) q n s
  | 0, s, _ => rfl
  | n + 1, s, h => by
    unfold loop Newton.loop
    dsimp only
    rw [prepareStep_sim L P q { s with result := (terminate q s.result).1 } h]
    cases (terminate q s.result).2 with
    | error e => rfl
    | ok b =>
      cases b with
      | true => rfl
      | false =>
      dsimp only
      cases hp : Newton.prepareStep (modified L P) q { s with result := (terminate q s.result).1 } with
      | error s' => rfl
      | ok s' =>
        have hs' : L s'.solution = s'.solution := by
          rw [(prepareStep_fields _ q _ s' (Or.inl hp)).1]
          exact h
        have key : ∀ d red, lineSearch L P q ⟨s'.solution, d⟩ (P.solve (s'.jacobian.getD none) s'.solution red).2.1 =
            Newton.lineSearch (modified L P) q ⟨s'.solution, d⟩ ((modified L P).solve (s'.jacobian.getD none) s'.solution red).2.1 :=
          fun d red => lineSearch_sim L P q ⟨s'.solution, d⟩ _ hs'
        have hfix : ∀ d red, L (Newton.lineSearch (modified L P) q ⟨s'.solution, d⟩
            ((modified L P).solve (s'.jacobian.getD none) s'.solution red).2.1).1.solution = (Newton.lineSearch (modified L P) q ⟨s'.solution, d⟩
            ((modified L P).solve (s'.jacobian.getD none) s'.solution red).2.1).1.solution := by
          intro d red
          obtain ⟨l, hl⟩ := NewtonSolve.lineSearch_along (modified L P) q ⟨s'.solution, d⟩
            ((modified L P).solve (s'.jacobian.getD none) s'.solution red).2.1
          rw [hl, map_sub, map_smul]
          show L s'.solution - l • L (L _) = s'.solution - l • L _
          rw [hs', hL]
        dsimp only
        rw [key]
        show ite ((P.solve (s'.jacobian.getD none) s'.solution _).1 = false) _ _ = ite ((P.solve (s'.jacobian.getD none) s'.solution _).1 = false) _ _
        generalize hr : linearReduction q s'.result s'.previousDefect = red
        by_cases ho : (P.solve (s'.jacobian.getD none) s'.solution red).1 = false
        · rw [if_pos ho, if_pos ho]
          rfl
        · rw [if_neg ho, if_neg ho]
          have hf := hfix s'.result.defect red
          revert hf
          generalize Newton.lineSearch (modified L P) q ⟨s'.solution, s'.result.defect⟩
            ((modified L P).solve (s'.jacobian.getD none) s'.solution red).2.1 = ls
          intro hf
          cases ls.2 with
          | some e => rfl
          | none => exact loop_sim L hL P q n _ hf

/-- The solver with modifications is the one without, started at the modified solution and with modified corrections. -/
theorem apply_sim (L : X →ₗ[K] X) (hL : ∀ y, L (L y) = L y) (P : Problem K X) (q : Params K) (kept : Option (Option X)) (x : X) :
    apply L P q kept x = Newton.apply (modified L P) q kept (L x) := by
  unfold apply Newton.apply
  dsimp only
  rw [show (update L P x).solution = L x from rfl, loop_sim L hL P q _ _ (hL x)]
  rfl

section Hanging
open Constraints Assembly ConstrainedSolve
variable {I F : Type} [DecidableEq I] [Field F] [LinearOrder F] [Fintype I]

omit [LinearOrder F] [Fintype I] in
theorem conforming_comb {t : Trafo I F} {x y : I → F} (hx : Conforming t x) (hy : Conforming t y) (c : F) : Conforming t fun k => x k + c * y k := by
  intro k row hm hn
  simp only [hx k row hm hn, hy k row hm hn]
  have : ∀ e : I × F, e.2 * (x e.1 + c * y e.1) = e.2 * x e.1 + c * (e.2 * y e.1) := fun e => by ring
  simp only [this, List.sum_map_add, List.sum_map_mul_left]

/-- The interpolation at hanging nodes is linear. -/
def interpolation {t : Trafo I F} (h : Admissible t) : (I → F) →ₗ[F] (I → F) where
  toFun := interpolate t
  map_add' x y := by
    have e := conforming_comb (interpolate_spec h x).1 (interpolate_spec h y).1 1
    refine (conforming_ext h (interpolate_spec h _).1 e fun k hk => ?_).trans ?_
    · rw [(interpolate_spec h _).2 k hk, (interpolate_spec h x).2 k hk, (interpolate_spec h y).2 k hk, one_mul]; rfl
    · funext k; rw [one_mul]; rfl
  map_smul' c x := by
    have e := conforming_comb (x := fun _ => (0 : F)) (fun k row _ _ => by simp) (interpolate_spec h x).1 c
    refine (conforming_ext h (interpolate_spec h _).1 e fun k hk => ?_).trans ?_
    · rw [(interpolate_spec h _).2 k hk, (interpolate_spec h x).2 k hk, zero_add]; rfl
    · funext k; rw [zero_add]; rfl

omit [LinearOrder F] [Fintype I] in
theorem interpolate_conforming {t : Trafo I F} (h : Admissible t) {x : I → F} (hx : Conforming t x) : interpolate t x = x :=
  conforming_ext h (interpolate_spec h x).1 hx fun k hk => (interpolate_spec h x).2 k hk

omit [LinearOrder F] [Fintype I] in
theorem interpolate_idem {t : Trafo I F} (h : Admissible t) (x : I → F) : interpolate t (interpolate t x) = interpolate t x :=
  interpolate_conforming h (interpolate_spec h x).1

omit [LinearOrder F] [Fintype I] in
theorem interpolate_correction {t : Trafo I F} (h : Admissible t) (z : I → F) (hz : ∀ k, t.Constrained k → z k = 0) :
    interpolate t z = backTransform t false z :=
  conforming_ext h (interpolate_spec h z).1 (back_conforming h z fun k hk => hz k (linear_constrained hk)) fun k hk => by
    rw [(interpolate_spec h z).2 k hk, (back_spec h z).1 k hk]

omit [LinearOrder F] in
theorem corrected_residual {t : Trafo I F} (h : Admissible t) (parts : List (Part I F)) (A : Part I F → Nat → Nat → F)
    (b : Part I F → Nat → F) (ha : ∀ p ∈ parts, Affine p (A p) (b p)) (x z : I → F)
    (hr : ∀ r, ¬ t.Constrained r → pair parts (fun k => testWeight t k r) (localProduct A (backTransform t false z))
      = residual t parts x r) (r : I) : residual t parts (fun k => x k - backTransform t false z k) r = 0 := by
  by_cases hc : t.Constrained r
  · exact residual_constrained t parts _ r hc
  · have e := residual_free h parts x r hc
    rw [form_affine parts A b ha] at e
    rw [residual_free h parts _ r hc, form_affine parts A b ha,
      pair_congr parts _ _ _ _ (fun _ => rfl) (fun p _ i _ => localProduct_sub A x (backTransform t false z) p i),
      pair_add_right, pair_smul_right, hr r hc, e]
    ring

end Hanging

end Verif.NewtonModified
