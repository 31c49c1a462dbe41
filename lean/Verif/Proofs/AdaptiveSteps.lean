import Verif.Proofs.Adaptivity
import Verif.Spec.AdaptiveSteps
import Mathlib.Tactic.Ring
import Mathlib.Tactic.Linarith
import Mathlib.Algebra.Order.BigOperators.Group.List
/-
Lemmas about whole adaptive computations.
-/
namespace Verif.Adaptivity

open Spec

variable {K : Type} [Field K] [LinearOrder K] [IsStrictOrderedRing K]

theorem estimate_nonneg (p : Params K) (a : Args K) (h : 0 ≤ p.scaling) : 0 ≤ estimate p a := by
  unfold estimate
  have h1 : 0 ≤ (a.cells.map fun c => |c.error|).sum := List.sum_nonneg (by simp)
  have h2 : 0 ≤ (a.etaTime.map fun e => |e|).sum := List.sum_nonneg (by simp)
  exact add_nonneg h1 (mul_nonneg h h2)

theorem run_bounds (tol rate : K) (es : List (Event K)) (s : Strategy K) (h : Uses tol rate es) :
    s.accumulated ≤ (run s es).accumulated ∧
    (run s es).accumulated ≤ s.accumulated + tol ^ 2 * (energyOf (acceptedSteps s es) + rate * timeOf (acceptedSteps s es)) := by
  unfold run
  induction es generalizing s with
  | nil => simp [acceptedSteps, energyOf, timeOf]
  | cons e es ih =>
    have h' : Uses tol rate es := fun e he => h e (List.mem_cons_of_mem _ he)
    rw [List.foldl_cons]
    obtain ⟨i1, i2⟩ := ih (step s e) h'
    cases e with
    | start => exact ⟨i1, i2⟩
    | evaluate p m a =>
      obtain ⟨hn, ht, hr, hs⟩ := h _ List.mem_cons_self p m a rfl
      obtain ⟨ha, hacc⟩ := evaluate_accept p m a s
      have hnn := estimate_nonneg p a hs
      have hacc' : (step s (.evaluate p m a)).accumulated = s.accumulated + (open Classical in if Acceptable p a then estimate p a else 0) := hacc
      by_cases hA : Acceptable p a
      · have hac : (step s (.evaluate p m a)).accept = true := ha.2 hA
        rw [if_pos hA] at hacc'
        have hle : estimate p a ≤ tol ^ 2 * (a.energy + rate * a.dt) := by
          rcases hA with hA | hA
          · rw [hn] at hA; cases hA
          · rw [← ht, ← hr]; exact hA
        have e1 : acceptedSteps s (.evaluate p m a :: es) = a :: acceptedSteps (step s (.evaluate p m a)) es := by
          rw [acceptedSteps, if_pos hac]; rfl
        rw [e1]
        generalize acceptedSteps (step s (.evaluate p m a)) es = l at i2 ⊢
        refine ⟨by linarith, ?_⟩
        have e2 : energyOf (a :: l) = a.energy + energyOf l := by simp [energyOf]
        have e3 : timeOf (a :: l) = a.dt + timeOf l := by simp [timeOf]
        rw [e2, e3]
        have e4 : tol ^ 2 * (a.energy + energyOf l + rate * (a.dt + timeOf l)) =
          tol ^ 2 * (a.energy + rate * a.dt) + tol ^ 2 * (energyOf l + rate * timeOf l) := by ring
        rw [e4]
        linarith
      · have hac : ¬ (step s (.evaluate p m a)).accept = true := fun h => hA (ha.1 h)
        rw [if_neg hA] at hacc'
        have e1 : acceptedSteps s (.evaluate p m a :: es) = acceptedSteps (step s (.evaluate p m a)) es := by
          rw [acceptedSteps, if_neg hac]; rfl
        rw [e1]
        rw [hacc', add_zero] at i1 i2
        exact ⟨i1, i2⟩

/-- After a decrease the sizes never grow. -/
theorem attempts_decreasing (ds : List (Params K × Int × Args K)) (s : Strategy K) (dt : K) (hdt : 0 < dt)
    (hf : ∀ d, d ∈ ds → 0 < d.1.decreaseFactor ∧ d.1.decreaseFactor < 1 ∧ 1 ≤ d.1.increaseFactor)
    (hr : AllRejected s dt ds) (hs : s.haveDecreased = true) :
    (attempts s dt ds).Pairwise (· ≥ ·) ∧ ∀ x, x ∈ attempts s dt ds → 0 < x ∧ x ≤ dt := by
  induction ds generalizing s dt with
  | nil => simp [attempts, hdt]
  | cons d ds ih =>
    obtain ⟨hr1, hr2⟩ := hr
    obtain ⟨f1, f2, _⟩ := hf d List.mem_cons_self
    have hA : ¬ Acceptable d.1 { d.2.2 with dt := dt } := fun h => by
      have := (evaluate_accept d.1 d.2.1 { d.2.2 with dt := dt } s).1.2 h
      have hr1' : (evaluate d.1 d.2.1 { d.2.2 with dt := dt } s).accept = false := hr1
      rw [hr1'] at this; cases this
    have hnew : 0 < (step s (.evaluate d.1 d.2.1 { d.2.2 with dt := dt })).newDt ∧
        (step s (.evaluate d.1 d.2.1 { d.2.2 with dt := dt })).newDt ≤ dt ∧
        (step s (.evaluate d.1 d.2.1 { d.2.2 with dt := dt })).haveDecreased = true := by
      rcases evaluate_rejected d.1 d.2.1 { d.2.2 with dt := dt } s hA with h | h | h
      · refine ⟨?_, ?_, h.2.2⟩
        · change 0 < (evaluate d.1 d.2.1 { d.2.2 with dt := dt } s).newDt
          rw [h.1]; exact mul_pos f1 hdt
        · change (evaluate d.1 d.2.1 { d.2.2 with dt := dt } s).newDt ≤ dt
          rw [h.1]; exact mul_le_of_le_one_left hdt.le f2.le
      · rw [hs] at h; exact absurd h.2.2.1 (by simp)
      · refine ⟨?_, ?_, h.2.2.2⟩
        · change 0 < (evaluate d.1 d.2.1 { d.2.2 with dt := dt } s).newDt
          rw [h.1]; exact hdt
        · change (evaluate d.1 d.2.1 { d.2.2 with dt := dt } s).newDt ≤ dt
          rw [h.1]
    obtain ⟨i1, i2⟩ := ih _ _ hnew.1 (fun d hd => hf d (List.mem_cons_of_mem _ hd)) hr2 hnew.2.2
    rw [attempts]
    refine ⟨List.pairwise_cons.2 ⟨fun x hx => ((i2 x hx).2.trans hnew.2.1), i1⟩, ?_⟩
    intro x hx
    rcases List.mem_cons.1 hx with rfl | hx
    · exact ⟨hdt, le_refl _⟩
    · exact ⟨(i2 x hx).1, (i2 x hx).2.trans hnew.2.1⟩

/-- The sizes first grow and then shrink. -/
theorem attempts_unimodal (ds : List (Params K × Int × Args K)) (s : Strategy K) (dt : K) (hdt : 0 < dt)
    (hf : ∀ d, d ∈ ds → 0 < d.1.decreaseFactor ∧ d.1.decreaseFactor < 1 ∧ 1 ≤ d.1.increaseFactor)
    (hr : AllRejected s dt ds) :
    (∃ up down, attempts s dt ds = up ++ down ∧ up.Pairwise (· ≤ ·) ∧ down.Pairwise (· ≥ ·) ∧
      (∀ x, x ∈ up → dt ≤ x)) ∧ ∀ x, x ∈ attempts s dt ds → 0 < x := by
  induction ds generalizing s dt with
  | nil => exact ⟨⟨[], [dt], rfl, List.Pairwise.nil, by simp, by simp⟩, by simp [attempts, hdt]⟩
  | cons d ds ih =>
    by_cases hs : s.haveDecreased = true
    · obtain ⟨h1, h2⟩ := attempts_decreasing (d :: ds) s dt hdt hf hr hs
      exact ⟨⟨[], _, rfl, List.Pairwise.nil, h1, by simp⟩, fun x hx => (h2 x hx).1⟩
    · obtain ⟨hr1, hr2⟩ := hr
      obtain ⟨f1, f2, f3⟩ := hf d List.mem_cons_self
      have hA : ¬ Acceptable d.1 { d.2.2 with dt := dt } := fun h => by
        have := (evaluate_accept d.1 d.2.1 { d.2.2 with dt := dt } s).1.2 h
        have hr1' : (evaluate d.1 d.2.1 { d.2.2 with dt := dt } s).accept = false := hr1
        rw [hr1'] at this; cases this
      have hf' := fun d hd => hf d (List.mem_cons_of_mem _ hd)
      rw [attempts]
      rcases evaluate_rejected d.1 d.2.1 { d.2.2 with dt := dt } s hA with h | h | h
      · -- decreased
        have e1 : (step s (.evaluate d.1 d.2.1 { d.2.2 with dt := dt })).newDt = d.1.decreaseFactor * dt := h.1
        have e2 : (step s (.evaluate d.1 d.2.1 { d.2.2 with dt := dt })).haveDecreased = true := h.2.2
        rw [e1] at hr2 ⊢
        have hpos := mul_pos f1 hdt
        obtain ⟨h1, h2⟩ := attempts_decreasing ds _ _ hpos hf' hr2 e2
        refine ⟨⟨[], _, rfl, List.Pairwise.nil, ?_, by simp⟩, ?_⟩
        · exact List.pairwise_cons.2 ⟨fun x hx => (h2 x hx).2.trans (mul_le_of_le_one_left hdt.le f2.le), h1⟩
        · intro x hx
          rcases List.mem_cons.1 hx with rfl | hx
          · exact hdt
          · exact (h2 x hx).1
      · have e1 : (step s (.evaluate d.1 d.2.1 { d.2.2 with dt := dt })).newDt = d.1.increaseFactor * dt := h.1
        rw [e1] at hr2 ⊢
        have hge : dt ≤ d.1.increaseFactor * dt := le_mul_of_one_le_left hdt.le f3
        obtain ⟨⟨up, down, e, u, v, w⟩, hp⟩ := ih _ _ (lt_of_lt_of_le hdt hge) hf' hr2
        refine ⟨⟨dt :: up, down, by rw [e]; rfl, ?_, v, ?_⟩, ?_⟩
        · exact List.pairwise_cons.2 ⟨fun x hx => hge.trans (w x hx), u⟩
        · intro x hx
          rcases List.mem_cons.1 hx with rfl | hx
          · exact le_refl _
          · exact hge.trans (w x hx)
        · intro x hx
          rcases List.mem_cons.1 hx with rfl | hx
          · exact hdt
          · exact hp x hx
      · exact absurd h.2.2.1 hs

end Verif.Adaptivity
