import Verif.Model.LocalOperator
import Verif.Spec.LocalOperator
import Mathlib.Data.List.FinRange
import Mathlib.Algebra.BigOperators.Fin
import Mathlib.Tactic.Ring
/-
Totals of sequences of accumulate calls.
-/
namespace Verif.LocalOp
open Spec

section
variable {ι κ K : Type} [DecidableEq ι] [DecidableEq κ]

section
variable [AddMonoid K]

theorem total_nil (i : ι) : total ([] : Calls ι K) i = 0 := rfl

theorem total_cons (c : ι × K) (l : Calls ι K) (i : ι) :
    total (c :: l) i = (if c.1 = i then c.2 else 0) + total l i := by
  unfold total
  by_cases h : c.1 = i <;> simp [h]

theorem total_append (l l' : Calls ι K) (i : ι) : total (l ++ l') i = total l i + total l' i := by
  simp [total, List.filter_append]

theorem total_flatMap {α : Type} (l : List α) (f : α → Calls ι K) (i : ι) :
    total (l.flatMap f) i = (l.map fun a => total (f a) i).sum := by
  induction l with
  | nil => simp [total_nil]
  | cons a l ih => simp [List.flatMap_cons, total_append, ih]

theorem total_map_inj (g : ι → κ) (hg : Function.Injective g) (l : Calls ι K) (i : ι) :
    total (l.map fun c => (g c.1, c.2)) (g i) = total l i := by
  induction l with
  | nil => rfl
  | cons c l ih => simp [total_cons, ih, hg.eq_iff]

theorem total_map_ne (g : ι → κ) (l : Calls ι K) (k : κ) (h : ∀ i, g i ≠ k) :
    total (l.map fun c => (g c.1, c.2)) k = 0 := by
  induction l with
  | nil => rfl
  | cons c l ih => simp [total_cons, ih, h]

theorem sum_map_ite_mem {α : Type} [DecidableEq α] (l : List α) (hl : l.Nodup) (a : α) (v : α → K) :
    (l.map fun b => if b = a then v b else 0).sum = if a ∈ l then v a else 0 := by
  induction l with
  | nil => simp
  | cons b l ih =>
    rw [List.nodup_cons] at hl
    simp only [List.map_cons, List.sum_cons, ih hl.2, List.mem_cons]
    by_cases h : b = a
    · subst h; simp [hl.1]
    · have : a ≠ b := fun e => h e.symm
      simp [h, this]

theorem total_forEach {n : Nat} (v : Fin n → K) (i : Fin n) : total (forEach v) i = v i := by
  unfold forEach
  have : ∀ l : List (Fin n), total (l.map fun i => (i, v i)) i = (l.map fun b => if b = i then v b else 0).sum := by
    intro l
    induction l with
    | nil => rfl
    | cons a l ih => simp [total_cons, ih]
  rw [this, sum_map_ite_mem _ (List.nodup_finRange n)]
  simp

end

section
variable [AddCommMonoid K]

theorem total_forEach₂ {m n : Nat} (v : Fin m → Fin n → K) (i : Fin m) (j : Fin n) :
    total (forEach₂ v) (i, j) = v i j := by
  unfold forEach₂
  rw [total_flatMap]
  have : ∀ k : Fin n, total ((List.finRange m).map fun i => ((i, k), v i k)) (i, j) = if k = j then v i k else 0 := by
    intro k
    by_cases h : k = j
    · subst h
      have h2 := total_map_inj (fun a : Fin m => (a, k)) (fun a b h => by simpa using h) (forEach fun a => v a k) i
      rw [total_forEach] at h2
      simpa [forEach, Function.comp_def] using h2
    · have h2 := total_map_ne (fun a : Fin m => (a, k)) (forEach fun a => v a k) (i, j) (fun a e => h (by simpa using (Prod.ext_iff.mp e).2))
      simpa [forEach, Function.comp_def, h] using h2
  simp only [this]
  rw [sum_map_ite_mem _ (List.nodup_finRange n)]
  simp

end
end

section
variable {ι ν K : Type} [Fintype ν] [Field K]

theorem applyMatrix_add (J J' : ι × ν → K) (z : ν → K) (i : ι) :
    applyMatrix (fun p => J p + J' p) z i = applyMatrix J z i + applyMatrix J' z i := by
  simp [applyMatrix, add_mul, Finset.sum_add_distrib]

theorem applyMatrix_zero (z : ν → K) (i : ι) : applyMatrix (fun _ => (0 : K)) z i = 0 := by
  simp [applyMatrix]

theorem applyMatrix_list_sum {α : Type} (l : List α) (J : α → ι × ν → K) (z : ν → K) (i : ι) :
    applyMatrix (fun p => (l.map fun a => J a p).sum) z i = (l.map fun a => applyMatrix (J a) z i).sum := by
  induction l with
  | nil => simp [applyMatrix]
  | cons a l ih => simp [applyMatrix_add, ih]

theorem isAffineWith_zero : IsAffineWith (fun _ (_ : ι) => (0 : K)) (fun _ : ι × ν => 0) := by
  intro x z i; simp [applyMatrix]

theorem isAffineWith_add {r r' : (ν → K) → ι → K} {J J' : ι × ν → K} (h : IsAffineWith r J) (h' : IsAffineWith r' J') :
    IsAffineWith (fun x i => r x i + r' x i) (fun p => J p + J' p) := by
  intro x z i
  simp only [applyMatrix_add, h x z i, h' x z i]
  ring

theorem isAffineWith_list_sum {α : Type} (l : List α) {r : α → (ν → K) → ι → K} {J : α → ι × ν → K}
    (h : ∀ a ∈ l, IsAffineWith (r a) (J a)) :
    IsAffineWith (fun x i => (l.map fun a => r a x i).sum) (fun p => (l.map fun a => J a p).sum) := by
  induction l with
  | nil => simpa using isAffineWith_zero
  | cons a l ih =>
    simp only [List.map_cons, List.sum_cons]
    exact isAffineWith_add (h a (by simp)) (ih fun b hb => h b (by simp [hb]))


/-- `res` is `J` plus a constant. -/
def LinearPlus (res : (ν → K) → ι → K) (J : ι × ν → K) (c : ι → K) : Prop := ∀ x i, res x i = applyMatrix J x i + c i

theorem LinearPlus.affine {res : (ν → K) → ι → K} {J : ι × ν → K} {c : ι → K} (h : LinearPlus res J c) :
    IsAffineWith res J := by
  intro x z i
  rw [h, h]
  simp only [applyMatrix, Pi.add_apply, mul_add, Finset.sum_add_distrib]
  ring

theorem LinearPlus.apply {res : (ν → K) → ι → K} {J : ι × ν → K} (h : LinearPlus res J fun _ => 0) (z : ν → K) :
    res z = applyMatrix J z := by
  funext i; simp [h z i]

variable [DecidableEq ι] [DecidableEq ν]

theorem linearPlus_flatMap {α : Type} (l : List α) (r : α → (ν → K) → Calls ι K) (J : α → Calls (ι × ν) K)
    (c : α → ι → K) (h : ∀ a ∈ l, LinearPlus (fun x => total (r a x)) (total (J a)) (c a)) :
    LinearPlus (fun x => total (l.flatMap fun a => r a x)) (total (l.flatMap J)) (fun i => (l.map fun a => c a i).sum) := by
  induction l with
  | nil => intro x i; simp [total_nil, applyMatrix]
  | cons a l ih =>
    intro x i
    have h1 := h a (by simp) x i
    have h2 := ih (fun b hb => h b (by simp [hb])) x i
    simp only [List.flatMap_cons, total_append, List.map_cons, List.sum_cons] at h1 h2 ⊢
    have e : total (J a ++ l.flatMap J) = fun p => total (J a) p + total (l.flatMap J) p := by
      funext p; exact total_append _ _ _
    rw [h1, h2, e, applyMatrix_add]
    ring

theorem linearPlus_flatMap_zero {α : Type} (l : List α) (r : α → (ν → K) → Calls ι K) (J : α → Calls (ι × ν) K)
    (h : ∀ a ∈ l, LinearPlus (fun x => total (r a x)) (total (J a)) (fun _ => 0)) :
    LinearPlus (fun x => total (l.flatMap fun a => r a x)) (total (l.flatMap J)) (fun _ => 0) := by
  have := linearPlus_flatMap l r J (fun _ _ => 0) h
  simpa using this

theorem linearPlus_append {r r' : (ν → K) → Calls ι K} {J J' : Calls (ι × ν) K} {c c' : ι → K}
    (h : LinearPlus (fun x => total (r x)) (total J) c) (h' : LinearPlus (fun x => total (r' x)) (total J') c') :
    LinearPlus (fun x => total (r x ++ r' x)) (total (J ++ J')) (fun i => c i + c' i) := by
  intro x i
  have h1 := h x i
  have h2 := h' x i
  have e : total (J ++ J') = fun p => total J p + total J' p := by funext p; exact total_append _ _ _
  simp only at h1 h2 ⊢
  rw [total_append, h1, h2, e, applyMatrix_add]
  ring

theorem linearPlus_nil : LinearPlus (fun _ : ν → K => total ([] : Calls ι K)) (total ([] : Calls (ι × ν) K)) (fun _ => 0) := by
  intro x i; simp [total_nil, applyMatrix]

end
end Verif.LocalOp
