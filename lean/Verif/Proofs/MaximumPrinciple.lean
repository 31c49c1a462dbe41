import Verif.Proofs.CCFV
import Verif.Spec.MaximumPrinciple
import Mathlib.Data.Finset.Max
/- Lemmas for C234. -/
set_option linter.unusedSectionVars false
namespace Verif.MaximumPrinciple
open LocalOp LocalOp.Spec LocalOp.CCFV Matrix GridAssembler

variable {K P Q : Type} [Field K] [LinearOrder K] [IsStrictOrderedRing K] {d : Nat}

/-- What a boundary face takes out of a cell, beyond what flows out. -/
def boundaryExcess (pb : Problem K P Q d) (u : Nat → K) (c face : Nat) : K :=
  match (pb.facePar c face).bctype (pb.faceGeo c face).center with
  | .dirichlet => (u c - (pb.cellPar c).g ((pb.faceGeo c face).inInside (pb.faceGeo c face).center)) * boundaryCoupling pb c face
  | .neumann => (pb.facePar c face).j (pb.faceGeo c face).center * area (pb.faceGeo c face)
  | .outflow => (pb.facePar c face).o (pb.faceGeo c face).center * area (pb.faceGeo c face)
  | .none => 0

theorem sum_split {α : Type} (l : List α) (f g h : α → K) (w : K) (hf : ∀ a ∈ l, f a = g a * w + h a) :
    (l.map f).sum = (l.map g).sum * w + (l.map h).sum := by
  induction l with
  | nil => simp
  | cons a l ih =>
    simp only [List.map_cons, List.sum_cons]
    rw [ih fun b hb => hf b (List.mem_cons_of_mem _ hb), hf a (List.mem_cons_self ..)]
    ring

theorem balance (ap : Bool) (pb : Problem K P Q d) (hg : ProperGrid ap pb.cells) (hsh : SharedFaces ap pb.cells)
    (hc : ConsistentFaces ap pb) (u : Nat → K) (c : Cell) (hm : c ∈ pb.cells) :
    total (residualCalls ap pb u) c.id =
      ((pb.cellPar c.id).c (pb.cellGeo c.id).center * (pb.cellGeo c.id).volume + netOutflow ap pb c) * u c.id -
        (pb.cellPar c.id).f (pb.cellGeo c.id).center * (pb.cellGeo c.id).volume +
      ((c.isects.filter (IsInterior ap)).map fun i => (u c.id - u i.outside) * coupling pb c.id i.face i.outside).sum +
      ((c.isects.filter IsBoundary).map fun i => boundaryExcess pb u c.id i.face).sum := by
  rw [cell_balance ap pb hg hsh hc u c hm]
  unfold cellInteriorFlux cellBoundaryFlux
  rw [sum_split (c.isects.filter (IsInterior ap)) _ (fun i => normalVelocity pb c.id i.face * area (pb.faceGeo c.id i.face))
      (fun i => (u c.id - u i.outside) * coupling pb c.id i.face i.outside) (u c.id) ?_,
    sum_split (c.isects.filter IsBoundary) _ (fun i => boundaryOutflow pb c.id i.face) (fun i => boundaryExcess pb u c.id i.face) (u c.id) ?_]
  · unfold production netOutflow
    ring
  · intro i _
    unfold boundaryFlux boundaryExcess boundaryCoupling boundaryOutflow
    cases (pb.facePar c.id i.face).bctype (pb.faceGeo c.id i.face).center <;> simp only <;> ring
  · intro i _
    unfold interiorFlux coupling
    by_cases hv : 0 ≤ normalVelocity pb c.id i.face
    · rw [if_pos hv, min_eq_right hv]; ring
    · rw [if_neg hv, min_eq_left (not_le.mp hv).le]; ring

theorem coupling_nonneg (pb : Problem K P Q d) (hd : StableData pb) (c : Cell) (hm : c ∈ pb.cells) (i : Isect) (hi : i ∈ c.isects) :
    0 ≤ coupling pb c.id i.face i.outside := by
  unfold coupling
  refine mul_nonneg ?_ (hd.area_nonneg c hm i hi)
  have h1 := div_nonneg (meanDiffusion_nonneg pb c.id i.face i.outside (hd.diffusion_nonneg c hm i hi).1 (hd.diffusion_nonneg c hm i hi).2)
    (hd.norm_nonneg (cellCentre pb c.id - cellCentre pb i.outside))
  have h2 := min_le_right (normalVelocity pb c.id i.face) 0
  linarith

theorem boundaryCoupling_nonneg (pb : Problem K P Q d) (hd : StableData pb) (c : Cell) (hm : c ∈ pb.cells) (i : Isect) (hi : i ∈ c.isects)
    (hb : IsBoundary i) (ht : (pb.facePar c.id i.face).bctype (pb.faceGeo c.id i.face).center = .dirichlet) :
    0 ≤ boundaryCoupling pb c.id i.face := by
  unfold boundaryCoupling
  refine mul_nonneg ?_ (hd.area_nonneg c hm i hi)
  have h1 := div_nonneg (hd.diffusion_nonneg c hm i hi).1
    (hd.norm_nonneg (cellCentre pb c.id - (pb.faceGeo c.id i.face).global (pb.faceGeo c.id i.face).center))
  have h2 := hd.dirichlet c hm i hi hb ht
  linarith

theorem boundaryExcess_nonneg (ap : Bool) (pb : Problem K P Q d) (hd : StableData pb) (M : K) (hM : BoundedAbove ap pb M) (u : Nat → K)
    (c : Cell) (hm : c ∈ pb.cells) (hu : M ≤ u c.id) (i : Isect) (hi : i ∈ c.isects) (hb : IsBoundary i) :
    0 ≤ boundaryExcess pb u c.id i.face := by
  unfold boundaryExcess
  have ha := hd.area_nonneg c hm i hi
  split
  · rename_i ht
    exact mul_nonneg (sub_nonneg.mpr ((hM.dirichlet c hm i hi hb ht).trans hu)) (boundaryCoupling_nonneg pb hd c hm i hi hb ht)
  · rename_i ht
    exact mul_nonneg (hM.neumann c hm i hi hb ht) ha
  · rename_i ht
    exact mul_nonneg (hM.outflow c hm i hi hb ht) ha
  · exact le_rfl

/-- In a cell with the largest value, not less than the bound, the residual is at least each of its parts. -/
theorem residual_ge (ap : Bool) (pb : Problem K P Q d) (hg : ProperGrid ap pb.cells) (hsh : SharedFaces ap pb.cells)
    (hc : ConsistentFaces ap pb) (hd : StableData pb) (ha : NoAccumulation ap pb) (M : K) (hM : BoundedAbove ap pb M) (u : Nat → K)
    (c : Cell) (hm : c ∈ pb.cells) (hu : M ≤ u c.id) (hmax : ∀ c' ∈ pb.cells, u c'.id ≤ u c.id) :
    0 ≤ total (residualCalls ap pb u) c.id ∧
    (∀ i ∈ c.isects, IsInterior ap i → (u c.id - u i.outside) * coupling pb c.id i.face i.outside ≤ total (residualCalls ap pb u) c.id) ∧
    ∀ i ∈ c.isects, IsBoundary i → boundaryExcess pb u c.id i.face ≤ total (residualCalls ap pb u) c.id := by
  rw [balance ap pb hg hsh hc u c hm]
  have h1 : 0 ≤ ((pb.cellPar c.id).c (pb.cellGeo c.id).center * (pb.cellGeo c.id).volume + netOutflow ap pb c) * u c.id -
        (pb.cellPar c.id).f (pb.cellGeo c.id).center * (pb.cellGeo c.id).volume :=
    sub_nonneg.mpr ((hM.source c hm).trans (mul_le_mul_of_nonneg_left hu (ha c hm)))
  have hi : ∀ x ∈ (c.isects.filter (IsInterior ap)).map fun i => (u c.id - u i.outside) * coupling pb c.id i.face i.outside, 0 ≤ x := by
    intro x hx
    obtain ⟨i, hi, rfl⟩ := List.mem_map.mp hx
    obtain ⟨hi1, hi2⟩ := List.mem_filter.mp hi
    refine mul_nonneg (sub_nonneg.mpr ?_) (coupling_nonneg pb hd c hm i hi1)
    obtain ⟨c', hc', e⟩ := List.mem_map.mp (hg.outside_mem c hm i hi1 (by simpa using hi2))
    rw [← e]
    exact hmax c' hc'
  have hb : ∀ x ∈ (c.isects.filter IsBoundary).map fun i => boundaryExcess pb u c.id i.face, 0 ≤ x := by
    intro x hx
    obtain ⟨i, hi, rfl⟩ := List.mem_map.mp hx
    obtain ⟨hi1, hi2⟩ := List.mem_filter.mp hi
    exact boundaryExcess_nonneg ap pb hd M hM u c hm hu i hi1 (by simpa using hi2)
  have h2 := List.sum_nonneg hi
  have h3 := List.sum_nonneg hb
  refine ⟨by linarith, fun i h4 h5 => ?_, fun i h4 h5 => ?_⟩
  · have := List.single_le_sum hi _ (List.mem_map.mpr ⟨i, List.mem_filter.mpr ⟨h4, by simpa using h5⟩, rfl⟩)
    linarith
  · have := List.single_le_sum hb _ (List.mem_map.mpr ⟨i, List.mem_filter.mpr ⟨h4, by simpa using h5⟩, rfl⟩)
    linarith

theorem exists_max (cells : List Cell) (c : Cell) (h : c ∈ cells) (u : Nat → K) : ∃ c ∈ cells, ∀ c' ∈ cells, u c'.id ≤ u c.id := by
  induction cells generalizing c with
  | nil => exact absurd h List.not_mem_nil
  | cons a l ih =>
    by_cases hl : l = []
    · subst hl
      exact ⟨a, List.mem_cons_self .., fun c' hc' => by rw [List.mem_singleton.mp hc']⟩
    · obtain ⟨b, hb⟩ := List.exists_mem_of_ne_nil l hl
      obtain ⟨m, hm, hmax⟩ := ih b hb
      rcases le_total (u m.id) (u a.id) with h1 | h1
      · refine ⟨a, List.mem_cons_self .., fun c' hc' => ?_⟩
        rcases List.mem_cons.mp hc' with rfl | hc'
        · exact le_rfl
        · exact (hmax c' hc').trans h1
      · refine ⟨m, List.mem_cons_of_mem _ hm, fun c' hc' => ?_⟩
        rcases List.mem_cons.mp hc' with rfl | hc'
        · exact h1
        · exact hmax c' hc'

theorem stationary_le (ap : Bool) (pb : Problem K P Q d) (hg : ProperGrid ap pb.cells) (hsh : SharedFaces ap pb.cells)
    (hc : ConsistentFaces ap pb) (hd : StableData pb) (ha : NoAccumulation ap pb) (hr : ∀ c ∈ pb.cells, Reaches ap pb c)
    (M : K) (hM : BoundedAbove ap pb M) (u : Nat → K)
    (h : Stationary (fun v => total (residualCalls ap pb v)) pb.cells u) : ∀ c ∈ pb.cells, u c.id ≤ M := by
  intro c hm
  obtain ⟨m, hmm, hmax⟩ := exists_max pb.cells c hm u
  refine (hmax c hm).trans ?_
  by_contra hlt
  rw [not_le] at hlt
  have key : ∀ c, Reaches ap pb c → c ∈ pb.cells → u c.id = u m.id → False := by
    intro c hc'
    induction hc' with
    | boundary c i hi hb ht hp =>
      intro hcm hcu
      obtain ⟨-, -, h3⟩ := residual_ge ap pb hg hsh hc hd ha M hM u c hcm (by rw [hcu]; exact hlt.le) (by rw [hcu]; exact hmax)
      have h4 := h3 i hi hb
      rw [show total (residualCalls ap pb u) c.id = 0 from h c hcm] at h4
      unfold boundaryExcess at h4
      rw [ht] at h4
      have h5 := hM.dirichlet c hcm i hi hb ht
      have : 0 < (u c.id - (pb.cellPar c.id).g ((pb.faceGeo c.id i.face).inInside (pb.faceGeo c.id i.face).center)) * boundaryCoupling pb c.id i.face :=
        mul_pos (by rw [hcu]; linarith) hp
      exact absurd h4 (not_le.mpr this)
    | inner c c' i hi hint hp hcm' hid _ ih =>
      intro hcm hcu
      obtain ⟨-, h2, -⟩ := residual_ge ap pb hg hsh hc hd ha M hM u c hcm (by rw [hcu]; exact hlt.le) (by rw [hcu]; exact hmax)
      have h4 := h2 i hi hint
      rw [show total (residualCalls ap pb u) c.id = 0 from h c hcm] at h4
      refine ih hcm' (le_antisymm (hmax c' hcm') ?_)
      rw [← hcu, hid]
      by_contra h6
      exact absurd h4 (not_le.mpr (mul_pos (sub_pos.mpr (not_le.mp h6)) hp))
  exact key m (hr m hmm) hmm rfl

theorem step_le (ap : Bool) (pb : Problem K P Q d) (hg : ProperGrid ap pb.cells) (hsh : SharedFaces ap pb.cells)
    (hc : ConsistentFaces ap pb) (hd : StableData pb) (ha : NoAccumulation ap pb) (M : K) (hM : BoundedAbove ap pb M)
    (dt : K) (hdt : 0 ≤ dt) (uold u : Nat → K) (hold : ∀ c ∈ pb.cells, uold c.id ≤ M)
    (h : ImplicitEulerStep (fun v => total (temporalCalls ap pb v)) (fun v => total (residualCalls ap pb v)) pb.cells dt uold u) :
    ∀ c ∈ pb.cells, u c.id ≤ M := by
  intro c hm
  obtain ⟨m, hmm, hmax⟩ := exists_max pb.cells c hm u
  refine (hmax c hm).trans ?_
  by_contra hlt
  rw [not_le] at hlt
  have h1 := (residual_ge ap pb hg hsh hc hd ha M hM u m hmm hlt.le hmax).1
  have h2 := h m hmm
  simp only [total_temporalCalls ap pb hg.nodup _ m hmm] at h2
  have h3 := mul_nonneg hdt h1
  have h4 := mul_pos (mul_pos (hd.capacity_pos m hmm) (sub_pos.mpr ((hold m hmm).trans_lt hlt))) (hd.volume_pos m hmm)
  linarith

/-- The problem with negated data. -/
def negated (pb : Problem K P Q d) : Problem K P Q d :=
  { pb with
    cellPar := fun c => { pb.cellPar c with f := fun p => -(pb.cellPar c).f p, g := fun p => -(pb.cellPar c).g p }
    facePar := fun c i => { pb.facePar c i with j := fun q => -(pb.facePar c i).j q, o := fun q => -(pb.facePar c i).o q } }

theorem negated_residual (ap : Bool) (pb : Problem K P Q d) (hg : ProperGrid ap pb.cells) (hsh : SharedFaces ap pb.cells)
    (hc : ConsistentFaces ap pb) (u : Nat → K) (c : Cell) (hm : c ∈ pb.cells) :
    total (residualCalls ap (negated pb) fun k => -u k) c.id = -total (residualCalls ap pb u) c.id := by
  have hc' : ConsistentFaces ap (negated pb) := ⟨hc.norm_neg, hc.area_eq, hc.normal_eq, hc.velocity_eq⟩
  rw [balance ap (negated pb) hg hsh hc' _ c hm, balance ap pb hg hsh hc u c hm]
  have e1 : ∀ l : List Isect, (l.map fun i => (-u c.id - -u i.outside) * coupling (negated pb) c.id i.face i.outside).sum =
      -(l.map fun i => (u c.id - u i.outside) * coupling pb c.id i.face i.outside).sum := by
    intro l
    induction l with
    | nil => simp
    | cons a l ih =>
      simp only [List.map_cons, List.sum_cons, ih]
      rw [show coupling (negated pb) c.id a.face a.outside = coupling pb c.id a.face a.outside from rfl]
      ring
  have e2 : ∀ l : List Isect, (l.map fun i => boundaryExcess (negated pb) (fun k => -u k) c.id i.face).sum =
      -(l.map fun i => boundaryExcess pb u c.id i.face).sum := by
    intro l
    induction l with
    | nil => simp
    | cons a l ih =>
      simp only [List.map_cons, List.sum_cons, ih]
      have : boundaryExcess (negated pb) (fun k => -u k) c.id a.face = -boundaryExcess pb u c.id a.face := by
        have hbc : boundaryCoupling (negated pb) c.id a.face = boundaryCoupling pb c.id a.face := rfl
        unfold boundaryExcess
        rw [hbc]
        simp only [negated]
        cases (pb.facePar c.id a.face).bctype (pb.faceGeo c.id a.face).center <;> simp only <;> ring
      rw [this]
      ring
  have e3 : netOutflow ap (negated pb) c = netOutflow ap pb c := rfl
  rw [e1, e2, e3]
  simp only [negated]
  ring

theorem negated_stable (pb : Problem K P Q d) (hd : StableData pb) : StableData (negated pb) :=
  ⟨hd.volume_pos, hd.capacity_pos, hd.reaction_nonneg, hd.area_nonneg, hd.diffusion_nonneg, hd.norm_nonneg, hd.dirichlet, hd.outflow⟩

theorem negated_reaches (ap : Bool) (pb : Problem K P Q d) (c : Cell) (h : Reaches ap pb c) : Reaches ap (negated pb) c := by
  induction h with
  | boundary c i h1 h2 h3 h4 => exact .boundary c i h1 h2 h3 h4
  | inner c c' i h1 h2 h3 h4 h5 _ ih => exact .inner c c' i h1 h2 h3 h4 h5 ih

theorem negated_bounded (ap : Bool) (pb : Problem K P Q d) (m : K) (h : BoundedBelow ap pb m) : BoundedAbove ap (negated pb) (-m) where
  source := fun c hc => by
    have := h.source c hc
    rw [show netOutflow ap (negated pb) c = netOutflow ap pb c from rfl]
    simp only [negated]
    linarith
  dirichlet := fun c hc i hi hb ht => neg_le_neg (h.dirichlet c hc i hi hb ht)
  neumann := fun c hc i hi hb ht => neg_nonneg.mpr (h.neumann c hc i hi hb ht)
  outflow := fun c hc i hi hb ht => neg_nonneg.mpr (h.outflow c hc i hi hb ht)

theorem homogeneous_stationary (ap : Bool) (pb : Problem K P Q d) (u v : Nat → K)
    (hu : Stationary (fun v => total (residualCalls ap pb v)) pb.cells u) (hv : Stationary (fun v => total (residualCalls ap pb v)) pb.cells v) :
    Stationary (fun v => total (residualCalls ap (homogeneous pb) v)) pb.cells fun k => u k - v k := by
  intro c hc
  change total _ _ = 0
  rw [← total_residual_sub, show total (residualCalls ap pb u) c.id = 0 from hu c hc, show total (residualCalls ap pb v) c.id = 0 from hv c hc,
    sub_zero]

theorem homogeneous_le (ap : Bool) (pb : Problem K P Q d) (hg : ProperGrid ap pb.cells) (hsh : SharedFaces ap pb.cells)
    (hc : ConsistentFaces ap pb) (hd : StableData pb) (ha : NoAccumulation ap pb) (hr : ∀ c ∈ pb.cells, Reaches ap pb c) (w : Nat → K)
    (h : Stationary (fun v => total (residualCalls ap (homogeneous pb) v)) pb.cells w) : ∀ c ∈ pb.cells, w c.id ≤ 0 := by
  refine stationary_le ap (homogeneous pb) hg hsh ⟨hc.norm_neg, hc.area_eq, hc.normal_eq, hc.velocity_eq⟩
    ⟨hd.volume_pos, hd.capacity_pos, hd.reaction_nonneg, hd.area_nonneg, hd.diffusion_nonneg, hd.norm_nonneg, hd.dirichlet, hd.outflow⟩ ha
    (fun c hcm => ?_) 0 ⟨fun c _ => ?_, fun c _ i _ _ _ => ?_, fun c _ i _ _ _ => ?_, fun c _ i _ _ _ => ?_⟩ w h
  · have h0 := hr c hcm
    clear hcm
    induction h0 with
    | boundary c i h1 h2 h3 h4 => exact .boundary c i h1 h2 h3 h4
    | inner c c' i h1 h2 h3 h4 h5 _ ih => exact .inner c c' i h1 h2 h3 h4 h5 ih
  · simp [homogeneous]
  · simp [homogeneous]
  · simp [homogeneous]
  · simp [homogeneous]

end Verif.MaximumPrinciple
