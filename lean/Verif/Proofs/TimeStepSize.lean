import Verif.Model.TimeStepSize
import Verif.Spec.TimeStepSize
import Verif.Proofs.CCFV
/-
Lemmas about step sizes.
-/
namespace Verif
open LocalOp LocalOp.Spec LocalOp.CCFV Matrix GridAssembler TimeStepSize Finset OneStep

section
variable {K P Q : Type} [Field K] [LinearOrder K] [IsStrictOrderedRing K] {d : Nat}

theorem sum_le_sum_mul {α : Type} (l : List α) (f g : α → K) (w : K) (h : ∀ a ∈ l, f a ≤ g a * w) : (l.map f).sum ≤ (l.map g).sum * w := by
  induction l with
  | nil => simp
  | cons a l ih =>
    rw [List.map_cons, List.sum_cons, List.map_cons, List.sum_cons, add_mul]
    exact add_le_add (h a List.mem_cons_self) (ih fun b hb => h b (List.mem_cons_of_mem _ hb))

/-- The residual of a cell is at most what flows out. -/
theorem residual_le_outflow (ap : Bool) (pb : Problem K P Q d) (hg : ProperGrid ap pb.cells) (hsh : SharedFaces ap pb.cells)
    (hc : ConsistentFaces ap pb) (hd : StableData pb) (hs : NonnegativeSources pb) (u : Nat → K) (hu : ∀ c ∈ pb.cells, 0 ≤ u c.id)
    (c : Cell) (hm : c ∈ pb.cells) : total (residualCalls ap pb u) c.id ≤ outflowRate ap pb c * u c.id := by
  rw [cell_balance ap pb hg hsh hc u c hm]
  unfold outflowRate
  rw [add_mul, add_mul]
  have hv := (hd.volume_pos c hm).le
  have huc := hu c hm
  refine add_le_add (add_le_add ?_ ?_) ?_
  · unfold production
    have := mul_nonneg (hs.source c hm) hv
    nlinarith
  · unfold cellInteriorFlux
    refine sum_le_sum_mul _ _ _ _ fun i hi => ?_
    rw [List.mem_filter] at hi
    obtain ⟨hi, hin⟩ := hi
    have hin : IsInterior ap i := by simpa using hin
    have ha := hd.area_nonneg c hm i hi
    obtain ⟨k1, k2⟩ := hd.diffusion_nonneg c hm i hi
    have hk := meanDiffusion_nonneg pb c.id i.face i.outside k1 k2
    have hn := hd.norm_nonneg (cellCentre pb c.id - cellCentre pb i.outside)
    have huo : 0 ≤ u i.outside := by
      have := hg.outside_mem c hm i hi hin
      unfold ids at this
      obtain ⟨c', hc', e⟩ := List.mem_map.1 this
      rw [← e]; exact hu c' hc'
    unfold interiorFlux
    have hq := div_nonneg hk hn
    rw [mul_div_assoc, show ∀ (a b : K), meanDiffusion pb c.id i.face i.outside * (a / b) = meanDiffusion pb c.id i.face i.outside / b * a from fun a b => by ring]
    generalize meanDiffusion pb c.id i.face i.outside / pb.twoNorm (cellCentre pb c.id - cellCentre pb i.outside) = q at *
    generalize normalVelocity pb c.id i.face = v
    generalize area (pb.faceGeo c.id i.face) = A at *
    rw [show (max v 0 + q) * A * u c.id = ((max v 0 + q) * u c.id) * A by ring]
    refine mul_le_mul_of_nonneg_right ?_ ha
    have := mul_nonneg hq huo
    split
    · rw [max_eq_left (by assumption)]; linarith
    · rename_i hv0
      rw [max_eq_right (by linarith)]
      have := mul_nonneg huo (show 0 ≤ -v by linarith)
      linarith
  · unfold cellBoundaryFlux
    refine sum_le_sum_mul _ _ _ _ fun i hi => ?_
    rw [List.mem_filter] at hi
    obtain ⟨hi, hb⟩ := hi
    have hb : IsBoundary i := by simpa using hb
    have ha := hd.area_nonneg c hm i hi
    have hk := (hd.diffusion_nonneg c hm i hi).1
    have hd1 := hd.dirichlet c hm i hi hb
    have hs1 := hs.dirichlet c hm i hi hb
    have hs2 := hs.neumann c hm i hi hb
    have hs3 := hs.outflow c hm i hi hb
    have hn := hd.norm_nonneg (cellCentre pb c.id - (pb.faceGeo c.id i.face).global (pb.faceGeo c.id i.face).center)
    unfold boundaryFlux
    cases hbc : (pb.facePar c.id i.face).bctype (pb.faceGeo c.id i.face).center
    · have hd1 := hd1 hbc
      have hs1 := hs1 hbc
      dsimp only
      have hq := div_nonneg hk hn
      rw [mul_div_assoc, show ∀ (a b : K), normalDiffusion pb c.id i.face c.id * (a / b) = normalDiffusion pb c.id i.face c.id / b * a from fun a b => by ring]
      generalize normalDiffusion pb c.id i.face c.id / pb.twoNorm (cellCentre pb c.id - (pb.faceGeo c.id i.face).global (pb.faceGeo c.id i.face).center) = q at *
      generalize (pb.cellPar c.id).g ((pb.faceGeo c.id i.face).inInside (pb.faceGeo c.id i.face).center) = g at *
      generalize normalVelocity pb c.id i.face = v at *
      generalize area (pb.faceGeo c.id i.face) = A at *
      rw [show q * A * u c.id = (q * u c.id) * A by ring]
      refine mul_le_mul_of_nonneg_right ?_ ha
      have h1 := mul_nonneg hq hs1
      have h2 := mul_nonneg (show 0 ≤ -v by linarith) hs1
      linarith
    · dsimp only
      have := mul_nonneg (show 0 ≤ -(pb.facePar c.id i.face).j (pb.faceGeo c.id i.face).center by linarith [hs2 hbc]) ha
      linarith
    · dsimp only
      have := mul_nonneg (show 0 ≤ -(pb.facePar c.id i.face).o (pb.faceGeo c.id i.face).center by linarith [hs3 hbc]) ha
      nlinarith
    · simp

/-- An Euler step of a nonnegative state. -/
theorem euler_nonneg (ap : Bool) (pb : Problem K P Q d) (hg : ProperGrid ap pb.cells) (hsh : SharedFaces ap pb.cells)
    (hc : ConsistentFaces ap pb) (hd : StableData pb) (hs : NonnegativeSources pb) (dt : K) (hdt : 0 ≤ dt) (hb : StepSizeBound ap pb dt)
    (u : Nat → K) (hu : ∀ c ∈ pb.cells, 0 ≤ u c.id) (c : Cell) (hm : c ∈ pb.cells) :
    0 ≤ total (temporalCalls ap pb u) c.id - dt * total (residualCalls ap pb u) c.id := by
  rw [total_temporalCalls ap pb hg.nodup u c hm]
  have h1 := mul_le_mul_of_nonneg_left (residual_le_outflow ap pb hg hsh hc hd hs u hu c hm) hdt
  have h2 := mul_le_mul_of_nonneg_right (hb c hm) (hu c hm)
  linarith

/-- A value is nonnegative if its capacity term is. -/
theorem nonneg_of_temporal (ap : Bool) (pb : Problem K P Q d) (hg : ProperGrid ap pb.cells) (hd : StableData pb) (u : Nat → K) (c : Cell)
    (hm : c ∈ pb.cells) (h : 0 ≤ total (temporalCalls ap pb u) c.id) : 0 ≤ u c.id := by
  rw [total_temporalCalls ap pb hg.nodup u c hm] at h
  by_contra hneg
  have h1 := mul_pos (hd.capacity_pos c hm) (hd.volume_pos c hm)
  have := mul_pos h1 (show 0 < -u c.id by linarith [not_le.1 hneg])
  linarith

theorem temporal_nonneg (ap : Bool) (pb : Problem K P Q d) (hg : ProperGrid ap pb.cells) (hd : StableData pb) (u : Nat → K)
    (hu : ∀ c ∈ pb.cells, 0 ≤ u c.id) (c : Cell) (hm : c ∈ pb.cells) : 0 ≤ total (temporalCalls ap pb u) c.id := by
  rw [total_temporalCalls ap pb hg.nodup u c hm]
  exact mul_nonneg (mul_nonneg (hd.capacity_pos c hm).le (hu c hm)) (hd.volume_pos c hm).le

theorem stages_nonneg (S : Scheme K) (hS : S = explicitEuler ∨ S = heun ∨ S = shu3) (ap : Bool) (pb : Problem K P Q d)
    (hg : ProperGrid ap pb.cells) (hsh : SharedFaces ap pb.cells) (hc : ConsistentFaces ap pb) (hd : StableData pb) (hs : NonnegativeSources pb)
    (dt : K) (hdt : 0 ≤ dt) (hb : StepSizeBound ap pb dt) (u : Nat → Nat → K) (h0 : ∀ c ∈ pb.cells, 0 ≤ u 0 c.id)
    (h : SchemeStages S (fun v => total (temporalCalls ap pb v)) (fun v => total (residualCalls ap pb v)) pb.cells dt u) :
    ∀ r, r ≤ S.s → ∀ c ∈ pb.cells, 0 ≤ u r c.id := by
  have hE := euler_nonneg ap pb hg hsh hc hd hs dt hdt hb
  have hT := temporal_nonneg ap pb hg hd
  have hN := nonneg_of_temporal ap pb hg hd
  rcases hS with rfl | rfl | rfl
  · have h1 : ∀ c ∈ pb.cells, 0 ≤ u 1 c.id := by
      intro c hm
      have h1 := h 1 le_rfl le_rfl c hm
      simp [sum_range_succ, Scheme.a, Scheme.b, explicitEuler, oneStepTheta] at h1
      have := hE (u 0) h0 c hm
      exact hN (u 1) c hm (by linarith)
    intro r hr
    simp only [explicitEuler, oneStepTheta] at hr
    obtain rfl | rfl : r = 0 ∨ r = 1 := by omega
    · exact h0
    · exact h1
  · have h1 : ∀ c ∈ pb.cells, 0 ≤ u 1 c.id := by
      intro c hm
      have h1 := h 1 le_rfl (by simp [heun]) c hm
      simp [sum_range_succ, Scheme.a, Scheme.b, heun] at h1
      have := hE (u 0) h0 c hm
      exact hN (u 1) c hm (by linarith)
    have h2 : ∀ c ∈ pb.cells, 0 ≤ u 2 c.id := by
      intro c hm
      have h2 := h 2 (by simp) (by simp [heun]) c hm
      simp [sum_range_succ, Scheme.a, Scheme.b, heun] at h2
      have := hE (u 1) h1 c hm
      have := hT (u 0) h0 c hm
      exact hN (u 2) c hm (by linarith)
    intro r hr
    simp only [heun] at hr
    obtain rfl | rfl | rfl : r = 0 ∨ r = 1 ∨ r = 2 := by omega
    · exact h0
    · exact h1
    · exact h2
  · have h1 : ∀ c ∈ pb.cells, 0 ≤ u 1 c.id := by
      intro c hm
      have h1 := h 1 le_rfl (by simp [shu3]) c hm
      simp [sum_range_succ, Scheme.a, Scheme.b, shu3] at h1
      have := hE (u 0) h0 c hm
      exact hN (u 1) c hm (by linarith)
    have h2 : ∀ c ∈ pb.cells, 0 ≤ u 2 c.id := by
      intro c hm
      have h2 := h 2 (by simp) (by simp [shu3]) c hm
      simp [sum_range_succ, Scheme.a, Scheme.b, shu3] at h2
      have := hE (u 1) h1 c hm
      have := hT (u 0) h0 c hm
      exact hN (u 2) c hm (by linarith)
    have h3 : ∀ c ∈ pb.cells, 0 ≤ u 3 c.id := by
      intro c hm
      have h3 := h 3 (by simp) (by simp [shu3]) c hm
      simp [sum_range_succ, Scheme.a, Scheme.b, shu3] at h3
      have := hE (u 2) h2 c hm
      have := hT (u 0) h0 c hm
      exact hN (u 3) c hm (by linarith)
    intro r hr
    simp only [shu3] at hr
    obtain rfl | rfl | rfl | rfl : r = 0 ∨ r = 1 ∨ r = 2 ∨ r = 3 := by omega
    · exact h0
    · exact h1
    · exact h2
    · exact h3

end

section
variable {K P Q : Type} [Field K] [LinearOrder K] {d : Nat}

theorem visitIsect_no_post (ap : Bool) (c index : Nat) (i : Isect) :
    ∀ e ∈ visitIsect engine ap c index i, e.kind ≠ .assembleUVVolumePostSkeleton := by
  intro e he
  unfold visitIsect at he
  split at he <;> simp only [engine] at he <;> repeat' split at he
  all_goals
    simp only [List.mem_append, List.mem_cons, List.not_mem_nil, or_false, false_or] at he
  all_goals
    first
      | exact he.elim
      | (rcases he with ((rfl | rfl) | rfl | rfl | rfl | rfl) | rfl <;> simp)
      | (rcases he with rfl | rfl | rfl <;> simp)
      | (rcases he with rfl | rfl <;> simp)
      | (rcases he with rfl <;> simp)

theorem loopIsects_no_post (ap : Bool) (c : Nat) (l : List Isect) : ∀ (index : Nat),
    ∀ e ∈ loopIsects engine ap c index l, e.kind ≠ .assembleUVVolumePostSkeleton := by
  induction l with
  | nil => intro index e he; simp [loopIsects] at he
  | cons i l ih =>
    intro index e he
    unfold loopIsects at he
    split at he
    · exact ih _ e he
    · rcases List.mem_append.1 he with he | he
      · exact visitIsect_no_post ap c index i e he
      · exact ih _ e he

/-- The assembly never calls the post-skeleton term of the operator. -/
theorem assemble_no_post (ap : Bool) (cells : List Cell) : ∀ e ∈ assemble engine ap cells, e.kind ≠ .assembleUVVolumePostSkeleton := by
  intro e he
  unfold assemble at he
  rcases List.mem_append.1 he with he | he
  · rcases List.mem_append.1 he with he | he
    · rw [List.mem_singleton.1 he]; simp
    · obtain ⟨c, -, he⟩ := List.mem_flatMap.1 he
      unfold visitCell at he
      split at he
      · simp at he
      · rcases List.mem_append.1 he with he | he
        · rcases List.mem_append.1 he with he | he
          · rcases List.mem_append.1 he with he | he
            · simp only [List.mem_cons, List.not_mem_nil, or_false] at he
              rcases he with rfl | rfl | rfl | rfl | rfl <;> simp
            · split at he
              · exact loopIsects_no_post ap c.id c.isects 0 e he
              · simp at he
          · simp [engine] at he
        · simp only [List.mem_cons, List.not_mem_nil, or_false] at he
          rcases he with rfl | rfl <;> simp
  · rw [List.mem_singleton.1 he]; simp

theorem assembled_eq (ap : Bool) (pb : Problem K P Q d) (s : FV K) : s.assembled ap pb = s := by
  unfold FV.assembled
  have h := assemble_no_post ap pb.cells
  generalize assemble engine ap pb.cells = l at h
  induction l generalizing s with
  | nil => rfl
  | cons e l ih =>
    rw [List.foldl_cons, if_neg (h e List.mem_cons_self)]
    exact ih _ fun e' he' => h e' (List.mem_cons_of_mem _ he')

theorem foldl_min_le (l : List Nat) (f : Nat → K) : ∀ (m : K), l.foldl (fun m q => min m (f q)) m ≤ m ∧
    (∀ q ∈ l, l.foldl (fun m q => min m (f q)) m ≤ f q) ∧
    (l.foldl (fun m q => min m (f q)) m = m ∨ ∃ q ∈ l, l.foldl (fun m q => min m (f q)) m = f q) := by
  induction l with
  | nil => intro m; simp
  | cons a l ih =>
    intro m
    obtain ⟨h1, h2, h3⟩ := ih (min m (f a))
    rw [List.foldl_cons]
    refine ⟨h1.trans (min_le_left _ _), ?_, ?_⟩
    · intro q hq
      rcases List.mem_cons.1 hq with rfl | hq
      · exact h1.trans (min_le_right _ _)
      · exact h2 q hq
    · rcases h3 with h3 | ⟨q, hq, h3⟩
      · rcases min_choice m (f a) with h | h
        · left; rw [h3, h]
        · right; exact ⟨a, List.mem_cons_self, by rw [h3, h]⟩
      · right; exact ⟨q, List.mem_cons_of_mem _ hq, h3⟩

theorem suggest_spec (procs : Nat) (l0 l1 : Nat → K) (p : Nat) (hp : p < procs) :
    (∀ q < procs, suggest procs l0 l1 p ≤ l0 q ∧ suggest procs l0 l1 p ≤ l1 q) ∧
    (∃ q < procs, suggest procs l0 l1 p = l0 q ∨ suggest procs l0 l1 p = l1 q) := by
  unfold suggest
  dsimp only
  split
  · obtain ⟨h1, h2, h3⟩ := foldl_min_le (List.range procs) (fun q => min (l0 q) (l1 q)) (min (l0 p) (l1 p))
    refine ⟨fun q hq => ?_, ?_⟩
    · have := h2 q (List.mem_range.2 hq)
      exact ⟨this.trans (min_le_left _ _), this.trans (min_le_right _ _)⟩
    · rcases h3 with h3 | ⟨q, hq, h3⟩
      · refine ⟨p, hp, ?_⟩
        rw [h3]
        exact min_choice _ _
      · refine ⟨q, List.mem_range.1 hq, ?_⟩
        rw [h3]
        exact min_choice _ _
  · rename_i h
    obtain rfl : procs = 1 := by omega
    obtain rfl : p = 0 := by omega
    refine ⟨fun q hq => ?_, 0, hp, min_choice _ _⟩
    obtain rfl : q = 0 := by omega
    exact ⟨min_le_left _ _, min_le_right _ _⟩

end

end Verif
