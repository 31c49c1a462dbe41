import Verif.Model.BlockPrecond
import Mathlib.Tactic.Ring
import Mathlib.Tactic.FieldSimp
import Mathlib.Tactic.Linarith
import Mathlib.Algebra.Order.Ring.Rat
import Mathlib.Algebra.BigOperators.Ring.List
import Mathlib.Data.Rat.Cast.Order
namespace Verif.BlockPrec

theorem truncate_int (n : Int) : truncate (n : ℚ) = n := by
  unfold truncate
  split <;> simp

theorem accumulateInt_int (data : List Int) : accumulateInt truncate (data.map fun n : Int => (n : ℚ)) = data.sum := by
  unfold accumulateInt
  suffices ∀ s : Int, (data.map fun n : Int => (n : ℚ)).foldl (fun (s : Int) x => truncate (s + x)) s = s + data.sum by
    rw [this]; simp
  induction data with
  | nil => simp
  | cons n l ih =>
    intro s
    rw [List.map_cons, List.foldl_cons, ← Int.cast_add, truncate_int, ih, List.sum_cons]
    ring

theorem innerProductInt_int (data : List Int) :
    innerProductInt truncate (data.map fun n : Int => (n : ℚ)) = (data.map fun n => n * n).sum := by
  unfold innerProductInt
  suffices ∀ s : Int, (data.map fun n : Int => (n : ℚ)).foldl (fun (s : Int) x => truncate (s + x * x)) s =
      s + (data.map fun n => n * n).sum by
    rw [this]; simp
  induction data with
  | nil => simp
  | cons n l ih =>
    intro s
    rw [List.map_cons, List.foldl_cons, ← Int.cast_mul, ← Int.cast_add, truncate_int, ih, List.map_cons, List.sum_cons]
    ring

theorem statSize_flatten (procs : List (List ℚ)) : statSize procs = procs.flatten.length := by
  unfold statSize
  rw [List.length_flatten]

theorem sum_flatten_rat (f : Int → ℚ) (procs : List (List Int)) :
    (procs.map fun d => (d.map f).sum).sum = (procs.flatten.map f).sum := by
  induction procs with
  | nil => rfl
  | cons d l ih => simp [ih]

theorem cast_sum (d : List Int) (f : Int → Int) : (((d.map f).sum : Int) : ℚ) = (d.map fun n : Int => ((f n : Int) : ℚ)).sum := by
  induction d with
  | nil => simp
  | cons n l ih => simp [ih]

/-- The data of all processes, as numbers of the type `T`. -/
def asRat (procs : List (List Int)) : List (List ℚ) := procs.map fun d => d.map fun n : Int => (n : ℚ)

theorem statSize_asRat (procs : List (List Int)) : statSize (asRat procs) = procs.flatten.length := by
  unfold statSize asRat
  rw [List.map_map, List.length_flatten]
  congr 1
  exact List.map_congr_left fun d _ => by simp

theorem sums_asRat (procs : List (List Int)) :
    ((asRat procs).map fun d => ((accumulateInt truncate d : Int) : ℚ)).sum = (procs.flatten.map fun n : Int => (n : ℚ)).sum := by
  unfold asRat
  rw [List.map_map, ← sum_flatten_rat]
  congr 1
  refine List.map_congr_left fun d _ => ?_
  simp only [Function.comp]
  rw [accumulateInt_int]
  simpa using cast_sum d id

theorem squares_asRat (procs : List (List Int)) :
    ((asRat procs).map fun d => ((innerProductInt truncate d : Int) : ℚ)).sum =
      (procs.flatten.map fun n : Int => (n : ℚ) * (n : ℚ)).sum := by
  unfold asRat
  rw [List.map_map, ← sum_flatten_rat]
  congr 1
  refine List.map_congr_left fun d _ => ?_
  simp only [Function.comp]
  rw [innerProductInt_int, cast_sum]
  congr 1
  exact List.map_congr_left fun n _ => by push_cast; rfl

theorem sum_sq_dev (l : List Int) (m : ℚ) :
    (l.map fun n : Int => ((n : ℚ) - m) ^ 2).sum =
      (l.map fun n : Int => (n : ℚ) * (n : ℚ)).sum - 2 * m * (l.map fun n : Int => (n : ℚ)).sum + l.length * m ^ 2 := by
  induction l with
  | nil => simp
  | cons n l ih => simp only [List.map_cons, List.sum_cons, List.length_cons, ih]; push_cast; ring

theorem foldl_min (l : List ℚ) (a : ℚ) :
    let m := l.foldl (fun m x => if x < m then x else m) a
    m ∈ a :: l ∧ ∀ x ∈ a :: l, m ≤ x := by
  induction l generalizing a with
  | nil => simp
  | cons b l ih =>
    intro m
    have h := ih (if b < a then b else a)
    obtain ⟨h1, h2⟩ := h
    refine ⟨?_, ?_⟩
    · have h1' : m ∈ (if b < a then b else a) :: l := h1
      rw [List.mem_cons] at h1'
      rcases h1' with h1' | h1'
      · rw [h1']; split <;> simp
      · simp [h1']
    · intro x hx
      have hm : m ≤ if b < a then b else a := h2 _ (by simp)
      simp only [List.mem_cons] at hx
      rcases hx with rfl | rfl | hx
      · refine hm.trans ?_
        split
        · rename_i h; exact h.le
        · exact le_refl _
      · refine hm.trans ?_
        split
        · exact le_refl _
        · rename_i h; exact not_lt.1 h
      · exact h2 x (by simp [hx])

theorem foldl_max (l : List ℚ) (a : ℚ) :
    let m := l.foldl (fun m x => if m < x then x else m) a
    m ∈ a :: l ∧ ∀ x ∈ a :: l, x ≤ m := by
  induction l generalizing a with
  | nil => simp
  | cons b l ih =>
    intro m
    have h := ih (if a < b then b else a)
    obtain ⟨h1, h2⟩ := h
    refine ⟨?_, ?_⟩
    · have h1' : m ∈ (if a < b then b else a) :: l := h1
      rw [List.mem_cons] at h1'
      rcases h1' with h1' | h1'
      · rw [h1']; split <;> simp
      · simp [h1']
    · intro x hx
      have hm : (if a < b then b else a) ≤ m := h2 _ (by simp)
      simp only [List.mem_cons] at hx
      rcases hx with rfl | rfl | hx
      · refine le_trans ?_ hm
        split
        · rename_i h; exact h.le
        · exact le_refl _
      · refine le_trans ?_ hm
        split
        · exact le_refl _
        · rename_i h; exact not_lt.1 h
      · exact h2 x (by simp [hx])

theorem mapM_total {f : List ℚ → Option ℚ} (procs : List (List ℚ)) (P : List ℚ → ℚ → Prop)
    (h : ∀ d ∈ procs, ∃ m, f d = some m ∧ P d m) :
    ∃ ms, procs.mapM f = some ms ∧ List.Forall₂ P procs ms := by
  induction procs with
  | nil => exact ⟨[], rfl, .nil⟩
  | cons d l ih =>
    obtain ⟨m, h1, h2⟩ := h d (by simp)
    obtain ⟨ms, h3, h4⟩ := ih fun d' hd' => h d' (by simp [hd'])
    exact ⟨m :: ms, by simp [List.mapM_cons, h1, h3], .cons h2 h4⟩

theorem forall2_left {P : List ℚ → ℚ → Prop} {procs : List (List ℚ)} {ms : List ℚ} (h : List.Forall₂ P procs ms) :
    ∀ d ∈ procs, ∃ m ∈ ms, P d m := by
  induction h with
  | nil => simp
  | cons h _ ih =>
    intro d hd
    rcases List.mem_cons.1 hd with rfl | hd
    · exact ⟨_, by simp, h⟩
    · obtain ⟨m, hm, hp⟩ := ih d hd
      exact ⟨m, by simp [hm], hp⟩

theorem forall2_right {P : List ℚ → ℚ → Prop} {procs : List (List ℚ)} {ms : List ℚ} (h : List.Forall₂ P procs ms) :
    ∀ m ∈ ms, ∃ d ∈ procs, P d m := by
  induction h with
  | nil => simp
  | cons h _ ih =>
    intro m hm
    rcases List.mem_cons.1 hm with rfl | hm
    · exact ⟨_, by simp, h⟩
    · obtain ⟨d, hd, hp⟩ := ih m hm
      exact ⟨d, by simp [hd], hp⟩

theorem statMin_spec (procs : List (List ℚ)) (hp : procs ≠ []) (hd : ∀ d ∈ procs, d ≠ []) :
    ∃ m, statMin procs = some m ∧ m ∈ procs.flatten ∧ ∀ x ∈ procs.flatten, m ≤ x := by
  obtain ⟨ms, h1, h2⟩ := mapM_total (f := minElement) procs (fun d m => m ∈ d ∧ ∀ x ∈ d, m ≤ x) (by
    intro d hd'
    cases d with
    | nil => exact absurd rfl (hd [] hd')
    | cons a l => exact ⟨_, rfl, foldl_min l a⟩)
  cases ms with
  | nil => cases h2; exact absurd rfl hp
  | cons a l =>
    obtain ⟨h3, h4⟩ := foldl_min l a
    refine ⟨_, by unfold statMin; rw [h1]; rfl, ?_, ?_⟩
    · obtain ⟨d, hd, hm, _⟩ := forall2_right h2 _ h3
      exact List.mem_flatten.2 ⟨d, hd, hm⟩
    · intro x hx
      obtain ⟨d, hd, hxd⟩ := List.mem_flatten.1 hx
      obtain ⟨m, hm, _, hle⟩ := forall2_left h2 d hd
      exact (h4 m hm).trans (hle x hxd)

theorem statMax_spec (procs : List (List ℚ)) (hp : procs ≠ []) (hd : ∀ d ∈ procs, d ≠ []) :
    ∃ m, statMax procs = some m ∧ m ∈ procs.flatten ∧ ∀ x ∈ procs.flatten, x ≤ m := by
  obtain ⟨ms, h1, h2⟩ := mapM_total (f := maxElement) procs (fun d m => m ∈ d ∧ ∀ x ∈ d, x ≤ m) (by
    intro d hd'
    cases d with
    | nil => exact absurd rfl (hd [] hd')
    | cons a l => exact ⟨_, rfl, foldl_max l a⟩)
  cases ms with
  | nil => cases h2; exact absurd rfl hp
  | cons a l =>
    obtain ⟨h3, h4⟩ := foldl_max l a
    refine ⟨_, by unfold statMax; rw [h1]; rfl, ?_, ?_⟩
    · obtain ⟨d, hd, hm, _⟩ := forall2_right h2 _ h3
      exact List.mem_flatten.2 ⟨d, hd, hm⟩
    · intro x hx
      obtain ⟨d, hd, hxd⟩ := List.mem_flatten.1 hx
      obtain ⟨m, hm, _, hle⟩ := forall2_left h2 d hd
      exact (hle x hxd).trans (h4 m hm)

end Verif.BlockPrec
