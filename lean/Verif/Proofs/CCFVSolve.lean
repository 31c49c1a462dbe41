import Verif.Spec.CCFVSolve
import Verif.Proofs.MaximumPrinciple
import Verif.Proofs.DGSolve
import Verif.Proofs.GridAssembler
import Verif.Props.ConvectionDiffusion
/-
Helper lemmas for C243.
-/
set_option linter.unusedSectionVars false
namespace Verif.CCFVSolve
open LocalOp LocalOp.Spec LocalOp.CCFV GridAssembler ConstrainedSolve Constraints Assembly FEMMesh

section events

/-- The calls of the traversal that matter, and the cells they are for. -/
theorem event_ids (ap : Bool) (cells : List Cell) (hg : ProperGrid ap cells) (e : Event) (he : e ∈ GridAssembler.assemble engine ap cells)
    (hk : e.kind = .assembleUVVolume ∨ e.kind = .assembleVVolume ∨ e.kind = .assembleUVSkeleton ∨ e.kind = .assembleUVBoundary) :
    e.cell ∈ ids cells ∧ (e.kind = .assembleUVSkeleton → e.outside ∈ ids cells) := by
  unfold GridAssembler.assemble at he
  simp only [List.mem_append, List.mem_singleton, List.mem_flatMap] at he
  rcases he with (rfl | ⟨c, hc, he⟩) | rfl
  · simp at hk
  · have hm : c.id ∈ ids cells := List.mem_map_of_mem hc
    unfold visitCell at he
    simp only [engine, Bool.false_eq_true, if_false, Bool.or_false, Bool.or_true, if_true, List.mem_append, List.mem_cons, List.not_mem_nil, or_false] at he
    rcases he with (((rfl | rfl | rfl | rfl | rfl) | he)) | rfl | rfl
    all_goals first
      | (obtain ⟨i, hi, idx, he⟩ := loopIsects_mem engine ap c.id c.isects 0 e he
         have h1 := visitIsect_face engine ap c.id idx i e he
         refine ⟨by rw [h1.2.1]; exact hm, fun hs => ?_⟩
         have hint : IsInterior ap i ∧ e.outside = i.outside := by
           unfold visitIsect at he
           split at he
           · rename_i hcl
             have := classify_skeleton ap i (.inl hcl)
             refine ⟨this, ?_⟩
             simp only [engine, Bool.or_false, if_true] at he
             split at he
             · simp only [List.mem_append, List.mem_cons, List.not_mem_nil, or_false] at he
               rcases he with ((rfl | rfl) | rfl | rfl | rfl | rfl) | rfl <;> rfl
             · cases he
           · rename_i hcl
             have := classify_skeleton ap i (.inr hcl)
             refine ⟨this, ?_⟩
             simp only [engine, Bool.or_false, if_true] at he
             split at he
             · simp only [List.mem_append, List.mem_cons, List.not_mem_nil, or_false] at he
               rcases he with ((rfl | rfl) | rfl | rfl | rfl | rfl) | rfl <;> rfl
             · cases he
           · simp [engine] at he
             rcases he with rfl | rfl <;> cases hs
           · simp [engine] at he
             rcases he with rfl | rfl <;> cases hs
         rw [hint.2]
         exact hg.outside_mem c hc i hi hint.1)
      | exact ⟨hm, fun hs => by cases hs⟩
  · simp at hk

theorem volume_event (ap : Bool) (cells : List Cell) (k : Nat) (h : k ∈ ids cells) :
    (⟨.assembleUVVolume, k, 0, 0, 0⟩ : Event) ∈ GridAssembler.assemble patternEngine ap cells := by
  obtain ⟨c, hc, rfl⟩ := List.mem_map.mp h
  unfold GridAssembler.assemble
  refine List.mem_append_left _ (List.mem_append_right _ (List.mem_flatMap.mpr ⟨c, hc, ?_⟩))
  unfold visitCell
  simp [patternEngine]

theorem isect_sub (ap : Bool) (c idx : Nat) (i : Isect) (e : Event) (he : e ∈ visitIsect engine ap c idx i) (hk : e.kind = .assembleUVSkeleton) :
    e ∈ visitIsect patternEngine ap c idx i := by
  unfold visitIsect at he ⊢
  cases hcl : classify ap i <;> rw [hcl] at he <;> simp only [engine, patternEngine, visitFace, Bool.or_false, if_true] at he ⊢
  all_goals first
    | exact he
    | (simp at he
       rcases he with rfl | rfl <;> cases hk)

theorem loop_sub (ap : Bool) (c : Nat) (is : List Isect) : ∀ (idx : Nat) (e : Event), e ∈ loopIsects engine ap c idx is → e.kind = .assembleUVSkeleton →
    e ∈ loopIsects patternEngine ap c idx is := by
  induction is with
  | nil => intro _ _ h; simp [loopIsects] at h
  | cons i is ih =>
    intro idx e h hk
    unfold loopIsects at h ⊢
    rw [if_neg (by simp [engine])] at h
    rw [if_neg (by simp [patternEngine])]
    rcases List.mem_append.mp h with h | h
    · exact List.mem_append_left _ (isect_sub ap c idx i e h hk)
    · exact List.mem_append_right _ (ih _ e h hk)

theorem skeleton_event (ap : Bool) (cells : List Cell) (e : Event) (he : e ∈ GridAssembler.assemble engine ap cells) (hk : e.kind = .assembleUVSkeleton) :
    e ∈ GridAssembler.assemble patternEngine ap cells := by
  unfold GridAssembler.assemble at he ⊢
  simp only [List.mem_append, List.mem_singleton, List.mem_flatMap] at he ⊢
  rcases he with (rfl | ⟨c, hc, he⟩) | rfl
  · cases hk
  · refine .inl (.inr ⟨c, hc, ?_⟩)
    have := loop_sub ap c.id c.isects 0 e (visitCell_outside engine ap c e he (.inr (.inl hk))) hk
    unfold visitCell
    rw [if_neg (by simp [patternEngine])]
    refine List.mem_append_left _ (List.mem_append_left _ (List.mem_append_right _ ?_))
    rw [if_pos (by simp [patternEngine])]
    exact this
  · cases hk

end events

section forms
variable {K P Q I : Type} [Field K] [LinearOrder K] [Inhabited I] [DecidableEq I] [Fintype I] {d : Nat}

theorem form_cons (p : Part I K) (l : List (Part I K)) (x w : I → K) : form (p :: l) x w = form [p] x w + form l x w := by
  unfold form
  simp

theorem form_filterMap {α : Type} (l : List α) (f : α → Option (Part I K)) (g : α → Calls Nat K) (dof : Nat → I) (x w : I → K)
    (h : ∀ e, form (f e).toList x w = tested ((g e).map fun c => (dof c.1, c.2)) w) :
    form (l.filterMap f) x w = tested ((l.flatMap g).map fun c => (dof c.1, c.2)) w := by
  induction l with
  | nil => simp [form, tested, LocalOp.Spec.total]
  | cons a l ih =>
    rw [List.flatMap_cons, List.map_append, tested_append, ← ih, ← h a]
    cases hf : f a with
    | none =>
      rw [List.filterMap_cons_none hf]
      simp [form]
    | some p =>
      rw [List.filterMap_cons_some hf, form_cons]
      rfl

theorem tested_nil {ι : Type} [DecidableEq ι] [Fintype ι] (w : ι → K) : tested ([] : Calls ι K) w = 0 := by simp [tested, LocalOp.Spec.total]

theorem form_ofCalls {ι : Type} [DecidableEq ι] [Fintype ι] {n : Nat} (e : ι ≃ Fin n) (loc : ι → I) (res : (ι → K) → Calls ι K)
    (jac : (ι → K) → Calls (ι × ι) K) (x w : I → K) : form (some (Part.ofCalls e loc res jac)).toList x w =
      tested ((res fun i => x (loc i)).map fun c => (loc c.1, c.2)) w := by
  rw [DGMesh.tested_relabel]
  have := ofCalls_tested e loc res jac x w
  simp only at this
  rw [← this]
  simp [form]

theorem form_event (pb : Problem K P Q d) (dof : Nat → I) (x w : I → K) (e : Event) :
    form (partOf pb dof e).toList x w = tested ((onEvent pb (inCells dof x) e).map fun c => (dof c.1, c.2)) w := by
  obtain ⟨kind, cell, face, index, outside⟩ := e
  cases kind <;> simp only [partOf, onEvent]
  case assembleVVolume =>
    rw [form_ofCalls, List.map_map]; rfl
  case assembleUVVolume =>
    rw [form_ofCalls, List.map_map]; rfl
  case assembleUVSkeleton =>
    rw [form_ofCalls, List.map_map]
    congr 1
  case assembleUVBoundary =>
    rw [form_ofCalls, List.map_map]; rfl
  all_goals
    rw [List.map_nil, tested_nil]
    simp [form]

theorem form_fv (ap : Bool) (pb : Problem K P Q d) (dof : Nat → I) (x w : I → K) :
    form (CCFV.meshParts ap pb dof) x w = tested ((residualCalls ap pb (inCells dof x)).map fun c => (dof c.1, c.2)) w :=
  form_filterMap _ _ _ dof x w (form_event pb dof x w)

/-- Where the contributions go. -/
theorem calls_ids (ap : Bool) (pb : Problem K P Q d) (hg : ProperGrid ap pb.cells) (u : Nat → K) (c : Nat × K) (h : c ∈ residualCalls ap pb u) :
    c.1 ∈ ids pb.cells := by
  obtain ⟨e, he, hc⟩ := List.mem_flatMap.mp h
  obtain ⟨kind, cell, face, index, outside⟩ := e
  cases kind <;> simp only [onEvent] at hc <;> first
    | (obtain ⟨c', -, rfl⟩ := List.mem_map.mp hc
       obtain ⟨h1, h2⟩ := event_ids ap pb.cells hg _ he (by simp)
       first
         | exact h1
         | (obtain ⟨i, v⟩ := c'
            cases i with
            | inl _ => exact h1
            | inr _ => exact h2 rfl))
    | cases hc

theorem total_relabel (dof : Nat → I) (l : Calls Nat K) (k : Nat) (h : ∀ c ∈ l, dof c.1 = dof k → c.1 = k) :
    LocalOp.Spec.total (l.map fun c => (dof c.1, c.2)) (dof k) = LocalOp.Spec.total l k := by
  induction l with
  | nil => rfl
  | cons c l ih =>
    rw [List.map_cons, total_cons, total_cons, ih fun c hc => h c (List.mem_cons_of_mem _ hc)]
    congr 1
    have := h c List.mem_cons_self
    by_cases h1 : dof c.1 = dof k
    · rw [if_pos h1, if_pos (this h1)]
    · rw [if_neg h1, if_neg fun h2 => h1 (by rw [h2])]

theorem total_fv (ap : Bool) (pb : Problem K P Q d) (hg : ProperGrid ap pb.cells) (dof : Nat → I) (hn : Numbering pb.cells dof) (u : Nat → K) (k : Nat)
    (hk : k ∈ ids pb.cells) :
    LocalOp.Spec.total ((residualCalls ap pb u).map fun c => (dof c.1, c.2)) (dof k) = LocalOp.Spec.total (residualCalls ap pb u) k :=
  total_relabel dof _ k fun c hc h => hn.injective _ (calls_ids ap pb hg u c hc) _ hk h

omit [Inhabited I] in
theorem tested_single (l : Calls I K) (i : I) : tested l (fun k => if k = i then 1 else 0) = LocalOp.Spec.total l i := by
  unfold tested
  simp

theorem form_single (ap : Bool) (pb : Problem K P Q d) (hg : ProperGrid ap pb.cells) (dof : Nat → I) (hn : Numbering pb.cells dof) (x : I → K) (k : Nat)
    (hk : k ∈ ids pb.cells) :
    form (CCFV.meshParts ap pb dof) x (fun i => if i = dof k then 1 else 0) = LocalOp.Spec.total (residualCalls ap pb (inCells dof x)) k := by
  rw [form_fv, tested_single, total_fv ap pb hg dof hn _ k hk]

theorem residual_empty (parts : List (Part I K)) (x : I → K) (i : I) :
    residual Trafo.empty parts x i = form parts x fun k => if k = i then 1 else 0 := by
  have : residual Trafo.empty parts x i = parts.foldl (addLocal x) (fun _ => 0) i := rfl
  rw [this, assembled_apply, zero_add, form_eq]

theorem form_zero_iff (ap : Bool) (pb : Problem K P Q d) (hg : ProperGrid ap pb.cells) (dof : Nat → I) (hn : Numbering pb.cells dof) (x : I → K) :
    (∀ w, form (CCFV.meshParts ap pb dof) x w = 0) ↔ ∀ c ∈ pb.cells, LocalOp.Spec.total (residualCalls ap pb (inCells dof x)) c.id = 0 := by
  constructor
  · intro h c hc
    rw [← form_single ap pb hg dof hn x c.id (List.mem_map_of_mem hc)]
    exact h _
  · intro h w
    rw [form_fv]
    unfold tested
    refine Finset.sum_eq_zero fun i _ => ?_
    obtain ⟨k, hk, rfl⟩ := hn.surjective i
    rw [total_fv ap pb hg dof hn _ k hk]
    obtain ⟨c, hc, rfl⟩ := List.mem_map.mp hk
    rw [h c hc, mul_zero]

theorem parts_affine (ap : Bool) (pb : Problem K P Q d) (dof : Nat → I) :
    ∀ p ∈ CCFV.meshParts ap pb dof, Affine p (p.jacobian fun _ => 0) (p.residual fun _ => 0) := by
  intro p hp
  obtain ⟨e, -, he⟩ := List.mem_filterMap.mp hp
  obtain ⟨kind, cell, face, index, outside⟩ := e
  cases kind <;> simp only [partOf, reduceCtorEq] at he <;> cases he
  · refine ofCalls_affine _ _ _ _ ?_
    intro x z i
    simp [applyMatrix, LocalOp.Spec.total]
  · exact ofCalls_affine _ _ _ _ (C92_ccfv_volume _ _).1
  · exact ofCalls_affine _ _ _ _ (C92_ccfv_skeleton _ _ _ _ _ _).1
  · exact ofCalls_affine _ _ _ _ (C92_ccfv_boundary _ _ _ _ _)

theorem linked_cell (ap : Bool) (cells : List Cell) (dof : Nat → I) (k : Nat) (hk : k ∈ ids cells) :
    ∃ q ∈ CCFV.meshPattern ap cells dof, ∃ l ∈ q.links, q.v l.1 = dof k ∧ q.u l.2 = dof k := by
  refine ⟨fullVolumePattern (Equiv.refl (Fin 1)) fun _ => dof k, List.mem_filterMap.mpr ⟨_, volume_event ap cells k hk, rfl⟩, (0, 0), ?_, ?_, ?_⟩
  · simp [fullVolumePattern]
  · simp [fullVolumePattern]
  · simp [fullVolumePattern]

theorem pattern_valid (ap : Bool) (cells : List Cell) (dof : Nat → I) : ∀ q ∈ CCFV.meshPattern ap cells dof, q.Valid := by
  intro q hq l hl
  obtain ⟨e, -, he⟩ := List.mem_filterMap.mp hq
  obtain ⟨kind, cell, face, index, outside⟩ := e
  cases kind <;> simp only [patternOf, reduceCtorEq] at he <;> cases he
  · simp only [fullVolumePattern, List.mem_flatMap, List.mem_map, List.mem_range] at hl
    obtain ⟨i, hi, j, hj, rfl⟩ := hl
    exact ⟨hi, hj⟩
  · simp only [facePattern, List.mem_cons, List.not_mem_nil, or_false] at hl
    rcases hl with rfl | rfl <;> exact ⟨by simp [facePattern], by simp [facePattern]⟩

theorem unit_v (x y : I) (i : Nat) (hi : i < 1) : (if _h : i < 1 then x else y) = x := dif_pos hi

theorem pattern_fits (ap : Bool) (pb : Problem K P Q d) (hg : ProperGrid ap pb.cells) (dof : Nat → I) (hn : Numbering pb.cells dof) (t : Trafo I K) :
    PatternFits t (CCFV.meshPattern ap pb.cells dof) (CCFV.meshParts ap pb dof) where
  valid := pattern_valid ap pb.cells dof
  diagonal k _ := by
    obtain ⟨k, hk, rfl⟩ := hn.surjective k
    exact linked_cell ap pb.cells dof k hk
  covered x p hp i hi j hj _ := by
    obtain ⟨p, hm, rfl⟩ := List.mem_map.mp hp
    clear hp
    obtain ⟨e, he, hpe⟩ := List.mem_filterMap.mp hm
    obtain ⟨kind, cell, face, index, outside⟩ := e
    cases kind <;> simp only [partOf, reduceCtorEq] at hpe <;> cases hpe
    case assembleUVSkeleton =>
      obtain ⟨h1, h2⟩ := event_ids ap pb.cells hg _ he (by simp)
      have h2' := h2 rfl
      have hq : facePattern (dof cell) (dof outside) ∈ CCFV.meshPattern ap pb.cells dof :=
        List.mem_filterMap.mpr ⟨_, skeleton_event ap pb.cells _ he rfl, rfl⟩
      have hi' : i < 2 := hi
      have hj' : j < 2 := hj
      have key : ∀ a : Nat, (h : a < 2) → (if h : a < 1 + 1 then Sum.elim (fun _ => dof cell) (fun _ => dof outside)
          ((finSumFinEquiv : Sides ≃ Fin (1 + 1)).symm ⟨a, h⟩) else default) = if a = 0 then dof cell else dof outside := by
        intro a h
        rw [dif_pos h]
        match a, h with
        | 0, _ => rfl
        | 1, _ => rfl
      suffices h : ∃ q ∈ CCFV.meshPattern ap pb.cells dof, ∃ l ∈ q.links, q.v l.1 = (if i = 0 then dof cell else dof outside) ∧
          q.u l.2 = if j = 0 then dof cell else dof outside by
        obtain ⟨q, hq, l, hl, e1, e2⟩ := h
        exact ⟨q, hq, l, hl, e1.trans (key i hi').symm, e2.trans (key j hj').symm⟩
      match i, j, hi', hj' with
      | 0, 0, _, _ => exact linked_cell ap pb.cells dof cell h1
      | 1, 1, _, _ => exact linked_cell ap pb.cells dof outside h2'
      | 0, 1, _, _ => exact ⟨_, hq, (0, 1), by simp [facePattern], by simp [facePattern], by simp [facePattern]⟩
      | 1, 0, _, _ => exact ⟨_, hq, (1, 0), by simp [facePattern], by simp [facePattern], by simp [facePattern]⟩
    all_goals
      obtain ⟨h1, -⟩ := event_ids ap pb.cells hg _ he (by simp)
      have hi' : i < 1 := hi
      have hj' : j < 1 := hj
      obtain ⟨q, hq, l, hl, e1, e2⟩ := linked_cell ap pb.cells dof cell h1
      refine ⟨q, hq, l, hl, e1.trans ?_, e2.trans ?_⟩
      · exact (unit_v (dof cell) default i hi').symm
      · exact (unit_v (dof cell) default j hj').symm

theorem homogeneous_any (w : I → K) : Homogeneous (Trafo.empty : Trafo I K) w := ⟨fun _ _ h _ => (by cases h), fun _ h => (by cases h)⟩

theorem admissible_empty : ConstrainedSolve.Admissible (Trafo.empty : Trafo I K) where
  keys := List.nodup_nil
  flag := by intro _; simp [Trafo.empty]
  chains := fun _ _ h => by cases h

theorem form_at (ap : Bool) (pb : Problem K P Q d) (hg : ProperGrid ap pb.cells) (dof : Nat → I) (hn : Numbering pb.cells dof) (x : I → K) (c : Cell)
    (hc : c ∈ pb.cells) : form (CCFV.meshParts ap pb dof) x (fun i => if i = dof c.id then 1 else 0) =
      LocalOp.Spec.total (residualCalls ap pb (inCells dof x)) c.id := form_single ap pb hg dof hn x c.id (List.mem_map_of_mem hc)

theorem bilinear_at (ap : Bool) (pb : Problem K P Q d) (hg : ProperGrid ap pb.cells) (dof : Nat → I) (hn : Numbering pb.cells dof) (x : I → K) (c : Cell)
    (hc : c ∈ pb.cells) : ConstrainedSolve.bilinear (CCFV.meshParts ap pb dof) x (fun i => if i = dof c.id then 1 else 0) =
      LocalOp.Spec.total (residualCalls ap (homogeneous pb) (inCells dof x)) c.id := by
  unfold ConstrainedSolve.bilinear
  rw [form_at ap pb hg dof hn x c hc, form_at ap pb hg dof hn _ c hc, total_residual_sub]
  simp [inCells]
  rfl

variable [IsStrictOrderedRing K]

theorem regular (ap : Bool) (pb : Problem K P Q d) (h : WellPosed ap pb) (hr : ∀ c ∈ pb.cells, Reaches ap pb c) (dof : Nat → I)
    (hn : Numbering pb.cells dof) : Regular Trafo.empty (CCFV.meshParts ap pb dof) := by
  intro y _ hy k
  obtain ⟨k, hk, rfl⟩ := hn.surjective k
  obtain ⟨c, hc, rfl⟩ := List.mem_map.mp hk
  have h1 : ∀ c ∈ pb.cells, LocalOp.Spec.total (residualCalls ap (homogeneous pb) (inCells dof y)) c.id = 0 := fun c hc => by
    rw [← bilinear_at ap pb h.grid dof hn y c hc]
    exact hy _ (homogeneous_any _)
  have h2 : ∀ c ∈ pb.cells, LocalOp.Spec.total (residualCalls ap (homogeneous pb) (inCells dof fun i => -y i)) c.id = 0 := fun c hc => by
    have e := total_residual_sub ap pb (fun _ => 0) (inCells dof y) c.id
    have e' := total_residual_sub ap pb (inCells dof y) (fun _ => 0) c.id
    have s1 : (fun k => inCells dof y k - 0) = inCells dof y := by funext k; exact sub_zero _
    have s2 : (fun k => 0 - inCells dof y k) = inCells dof fun i => -y i := by funext k; exact zero_sub _
    rw [s1, h1 c hc] at e'
    rw [s2] at e
    rw [← e, ← neg_sub, e', neg_zero]
  have a := MaximumPrinciple.homogeneous_le ap pb h.grid h.shared h.consistent h.stable h.accumulation hr _ h1 c hc
  have b := MaximumPrinciple.homogeneous_le ap pb h.grid h.shared h.consistent h.stable h.accumulation hr _ h2 c hc
  exact le_antisymm a (neg_nonpos.mp b)

theorem loss_eq (ap : Bool) (pb : Problem K P Q d) (h : WellPosed ap pb) (u : Nat → K) (c : Cell) (hc : c ∈ pb.cells) :
    LocalOp.Spec.total (residualCalls ap pb u) c.id = cellLoss ap pb u c := cell_balance ap pb h.grid h.shared h.consistent u c hc

theorem total_loss (ap : Bool) (pb : Problem K P Q d) (h : WellPosed ap pb) (u : Nat → K) :
    (pb.cells.map fun c => cellLoss ap pb u c).sum = (pb.cells.map fun c => production pb u c.id + cellBoundaryFlux pb u c).sum := by
  rw [← mass_balance ap pb h.grid u]
  unfold ids
  rw [List.map_map]
  congr 1
  exact List.map_congr_left fun c hc => (loss_eq ap pb h u c hc).symm

end forms

section transient
variable {K P Q I : Type} [Field K] [LinearOrder K] [Inhabited I] [DecidableEq I] [Fintype I] {d : Nat}

theorem partOf_none (pb : Problem K P Q d) (dof : Nat → I) (e : Event) (h : kindOf e.kind = none) : partOf pb dof e = none := by
  obtain ⟨kind, cell, face, index, outside⟩ := e
  cases kind <;> simp [kindOf] at h <;> rfl

theorem temporal_none (pb : Problem K P Q d) (dof : Nat → I) (e : Event) (h : kindOf e.kind = none) : temporalPartOf pb dof e = none := by
  obtain ⟨kind, cell, face, index, outside⟩ := e
  cases kind <;> simp [kindOf] at h <;> rfl

theorem parts_numbered (es : List Event) (f : Event → Option (Part I K)) (hf : ∀ e, kindOf e.kind = none → f e = none) :
    (es.zipIdx.filterMap fun e => (kindOf e.1.kind).map fun k => (k, e.2)).filterMap
      (fun c => es[c.2]?.bind fun e => if kindOf e.kind = some c.1 then f e else none) = es.filterMap f := by
  rw [List.filterMap_filterMap]
  have h : ∀ p ∈ es.zipIdx, ((kindOf p.1.kind).map fun k => (k, p.2)).bind
      (fun c : OneStep.Kind × Nat => es[c.2]?.bind fun e => if kindOf e.kind = some c.1 then f e else none) = f p.1 := by
    rintro ⟨e, n⟩ hp
    have hn : es[n]? = some e := by simpa using List.mk_mem_zipIdx_iff_getElem?.mp hp
    cases hk : kindOf e.kind with
    | none => simp [hf e hk]
    | some k => simp [hk, hn]
  rw [List.filterMap_congr h]
  have h2 : (es.zipIdx.filterMap fun p => f p.1) = (es.zipIdx.map Prod.fst).filterMap f := by
    rw [List.filterMap_map]; rfl
  rw [h2, List.zipIdx_map_fst]

theorem parts_spatial (ap : Bool) (pb : Transient K P Q d) (dof : Nat → I) (τ : K) :
    partsAt (pb.spatial ap dof) (pb.trace ap) τ = CCFV.meshParts ap (pb.at τ) dof :=
  parts_numbered _ _ (partOf_none (pb.at τ) dof)

theorem parts_temporal (ap : Bool) (pb : Transient K P Q d) (dof : Nat → I) (τ : K) :
    partsAt (pb.temporal ap dof) (pb.trace ap) τ = (GridAssembler.assemble engine ap pb.base.cells).filterMap (temporalPartOf pb.base dof) :=
  parts_numbered _ _ (temporal_none pb.base dof)

theorem no_post (ap : Bool) (pb : Transient K P Q d) (dof : Nat → I) : NoPost (pb.temporal ap dof : LocalParts I K) := by
  intro n τ
  unfold Transient.temporal
  constructor <;>
  · cases (GridAssembler.assemble engine ap pb.base.cells)[n]? with
    | none => rfl
    | some e =>
      obtain ⟨kind, cell, face, index, outside⟩ := e
      cases kind <;> simp [kindOf, temporalPartOf]

/-- The contributions of the temporal operator in this traversal. -/
def massCalls (ap : Bool) (pb : Problem K P Q d) (u : Nat → K) : Calls Nat K := (GridAssembler.assemble engine ap pb.cells).flatMap (onEventTemporal pb u)

theorem total_mass (ap : Bool) (pb : Problem K P Q d) (hn : (ids pb.cells).Nodup) (u : Nat → K) (c : Cell) (hm : c ∈ pb.cells) :
    LocalOp.Spec.total (massCalls ap pb u) c.id = content pb u c := by
  have key : ∀ l : List Event, (∀ e ∈ l, e.kind ≠ .assembleUVVolume) → l.flatMap (onEventTemporal pb u) = [] := by
    intro l hl
    rw [List.flatMap_eq_nil_iff]
    intro e he
    have := hl e he
    unfold onEventTemporal
    split
    · contradiction
    · rfl
  rw [show content pb u c = _ from (total_temporalCalls ap pb hn u c hm).symm]
  unfold massCalls temporalCalls GridAssembler.assemble
  congr 1
  rw [List.flatMap_append, List.flatMap_append, List.flatMap_append, List.flatMap_append, List.flatMap_assoc, List.flatMap_assoc]
  congr 2
  refine List.flatMap_congr fun c _ => ?_
  have hl : (loopIsects engine ap c.id 0 c.isects).flatMap (onEventTemporal pb u) = [] := key _ fun e he => by
    obtain ⟨i, -, idx, he⟩ := loopIsects_mem engine ap c.id c.isects 0 e he
    exact fun hk => visitIsect_kind engine ap c.id idx i e he (.inr (.inl hk))
  have h1 : visitCell engine ap c = [⟨.onBindLFSV, c.id, 0, 0, 0⟩, ⟨.assembleVVolume, c.id, 0, 0, 0⟩, ⟨.onBindLFSUV, c.id, 0, 0, 0⟩,
      ⟨.loadInside, c.id, 0, 0, 0⟩, ⟨.assembleUVVolume, c.id, 0, 0, 0⟩] ++ loopIsects engine ap c.id 0 c.isects ++ [] ++
      [⟨.onUnbindLFSUV, c.id, 0, 0, 0⟩, ⟨.onUnbindLFSV, c.id, 0, 0, 0⟩] := rfl
  have h2 : visitCell temporalEngine ap c = [⟨.onBindLFSV, c.id, 0, 0, 0⟩, ⟨.assembleVVolume, c.id, 0, 0, 0⟩, ⟨.onBindLFSUV, c.id, 0, 0, 0⟩,
      ⟨.loadInside, c.id, 0, 0, 0⟩, ⟨.assembleUVVolume, c.id, 0, 0, 0⟩] ++ [] ++ [] ++
      [⟨.onUnbindLFSUV, c.id, 0, 0, 0⟩, ⟨.onUnbindLFSV, c.id, 0, 0, 0⟩] := rfl
  rw [h1, h2]
  simp only [List.flatMap_append, hl, List.append_nil, List.flatMap_nil]

theorem form_temporal_event (pb : Problem K P Q d) (dof : Nat → I) (x w : I → K) (e : Event) :
    form (temporalPartOf pb dof e).toList x w = tested ((onEventTemporal pb (inCells dof x) e).map fun c => (dof c.1, c.2)) w := by
  obtain ⟨kind, cell, face, index, outside⟩ := e
  cases kind <;> simp only [temporalPartOf, onEventTemporal]
  case assembleUVVolume =>
    rw [form_ofCalls, List.map_map]; rfl
  all_goals
    rw [List.map_nil, tested_nil]
    simp [form]

theorem form_temporal (ap : Bool) (pb : Problem K P Q d) (dof : Nat → I) (x w : I → K) :
    form ((GridAssembler.assemble engine ap pb.cells).filterMap (temporalPartOf pb dof)) x w =
      tested ((massCalls ap pb (inCells dof x)).map fun c => (dof c.1, c.2)) w :=
  form_filterMap _ _ _ dof x w (form_temporal_event pb dof x w)

theorem mass_ids (ap : Bool) (pb : Problem K P Q d) (hg : ProperGrid ap pb.cells) (u : Nat → K) (c : Nat × K) (h : c ∈ massCalls ap pb u) :
    c.1 ∈ ids pb.cells := by
  obtain ⟨e, he, hc⟩ := List.mem_flatMap.mp h
  obtain ⟨kind, cell, face, index, outside⟩ := e
  cases kind <;> simp only [onEventTemporal] at hc <;> first
    | (obtain ⟨c', -, rfl⟩ := List.mem_map.mp hc
       exact (event_ids ap pb.cells hg _ he (by simp)).1)
    | cases hc

theorem total_mass_dof (ap : Bool) (pb : Problem K P Q d) (hg : ProperGrid ap pb.cells) (dof : Nat → I) (hn : Numbering pb.cells dof) (u : Nat → K)
    (c : Cell) (hc : c ∈ pb.cells) : LocalOp.Spec.total ((massCalls ap pb u).map fun c => (dof c.1, c.2)) (dof c.id) = content pb u c := by
  rw [← total_mass ap pb hg.nodup u c hc]
  exact total_relabel dof _ c.id fun e he h => hn.injective _ (mass_ids ap pb hg u e he) _ (List.mem_map_of_mem hc) h

theorem mass_at (ap : Bool) (pb : Problem K P Q d) (hg : ProperGrid ap pb.cells) (dof : Nat → I) (hn : Numbering pb.cells dof) (x : I → K)
    (c : Cell) (hc : c ∈ pb.cells) :
    form ((GridAssembler.assemble engine ap pb.cells).filterMap (temporalPartOf pb dof)) x (fun i => if i = dof c.id then 1 else 0) =
      content pb (inCells dof x) c := by
  rw [form_temporal, tested_single, total_mass_dof ap pb hg dof hn _ c hc]

theorem temporal_affine (ap : Bool) (pb : Problem K P Q d) (dof : Nat → I) :
    ∀ p ∈ (GridAssembler.assemble engine ap pb.cells).filterMap (temporalPartOf pb dof), Affine p (p.jacobian fun _ => 0) (p.residual fun _ => 0) := by
  intro p hp
  obtain ⟨e, -, he⟩ := List.mem_filterMap.mp hp
  obtain ⟨kind, cell, face, index, outside⟩ := e
  cases kind <;> simp only [temporalPartOf, reduceCtorEq] at he <;> cases he
  exact ofCalls_affine _ _ _ _ (C92_ccfv_temporal _ _).1

theorem temporal_fits (ap : Bool) (pb : Problem K P Q d) (hg : ProperGrid ap pb.cells) (dof : Nat → I) (hn : Numbering pb.cells dof) (t : Trafo I K) :
    PatternFits t (CCFV.meshPattern ap pb.cells dof) ((GridAssembler.assemble engine ap pb.cells).filterMap (temporalPartOf pb dof)) where
  valid := pattern_valid ap pb.cells dof
  diagonal k _ := by
    obtain ⟨k, hk, rfl⟩ := hn.surjective k
    exact linked_cell ap pb.cells dof k hk
  covered x p hp i hi j hj _ := by
    obtain ⟨p, hm, rfl⟩ := List.mem_map.mp hp
    clear hp
    obtain ⟨e, he, hpe⟩ := List.mem_filterMap.mp hm
    obtain ⟨kind, cell, face, index, outside⟩ := e
    cases kind <;> simp only [temporalPartOf, reduceCtorEq] at hpe <;> cases hpe
    obtain ⟨h1, -⟩ := event_ids ap pb.cells hg _ he (by simp)
    have hi' : i < 1 := hi
    have hj' : j < 1 := hj
    obtain ⟨q, hq, l, hl, e1, e2⟩ := linked_cell ap pb.cells dof cell h1
    refine ⟨q, hq, l, hl, e1.trans ?_, e2.trans ?_⟩
    · exact (unit_v (dof cell) default i hi').symm
    · exact (unit_v (dof cell) default j hj').symm

variable [IsStrictOrderedRing K]

theorem homogeneous_step_le (ap : Bool) (pb : Problem K P Q d) (h : WellPosed ap pb) (f1 b : K) (h1 : 0 < f1) (hb : 0 ≤ b) (w : Nat → K)
    (hw : ∀ c ∈ pb.cells, f1 * content pb w c + b * LocalOp.Spec.total (residualCalls ap (homogeneous pb) w) c.id = 0) : ∀ c ∈ pb.cells, w c.id ≤ 0 := by
  have hc := h.consistent
  have hd := h.stable
  refine MaximumPrinciple.step_le ap (homogeneous pb) h.grid h.shared ⟨hc.norm_neg, hc.area_eq, hc.normal_eq, hc.velocity_eq⟩
    ⟨hd.volume_pos, hd.capacity_pos, hd.reaction_nonneg, hd.area_nonneg, hd.diffusion_nonneg, hd.norm_nonneg, hd.dirichlet, hd.outflow⟩ h.accumulation
    0 ⟨fun c _ => ?_, fun c _ i _ _ _ => ?_, fun c _ i _ _ _ => ?_, fun c _ i _ _ _ => ?_⟩ (b / f1) (div_nonneg hb h1.le) (fun _ => 0) w (fun _ _ => le_refl _)
    fun c hcm => ?_
  · simp [homogeneous]
  · simp [homogeneous]
  · simp [homogeneous]
  · simp [homogeneous]
  · simp only
    have e := hw c hcm
    rw [total_temporalCalls ap (homogeneous pb) h.grid.nodup w c hcm, total_temporalCalls ap (homogeneous pb) h.grid.nodup _ c hcm]
    have : content pb w c = (homogeneous pb).capacity c.id ((homogeneous pb).cellGeo c.id).center * w c.id * ((homogeneous pb).cellGeo c.id).volume := rfl
    rw [← this]
    field_simp
    linear_combination e

theorem stage_regular (ap : Bool) (pb : Problem K P Q d) (h : WellPosed ap pb) (dof : Nat → I) (hn : Numbering pb.cells dof) (f1 b : K) (h1 : 0 < f1)
    (hb : 0 ≤ b) (y : I → K)
    (hw : ∀ w, f1 * ConstrainedSolve.bilinear ((GridAssembler.assemble engine ap pb.cells).filterMap (temporalPartOf pb dof)) y w +
      b * ConstrainedSolve.bilinear (CCFV.meshParts ap pb dof) y w = 0) : ∀ k, y k = 0 := by
  intro k
  obtain ⟨k, hk, rfl⟩ := hn.surjective k
  obtain ⟨c, hc, rfl⟩ := List.mem_map.mp hk
  have e1 : ∀ c ∈ pb.cells, f1 * content pb (inCells dof y) c + b * LocalOp.Spec.total (residualCalls ap (homogeneous pb) (inCells dof y)) c.id = 0 := by
    intro c hc
    have := hw fun i => if i = dof c.id then 1 else 0
    rw [bilinear_at ap pb h.grid dof hn y c hc] at this
    unfold ConstrainedSolve.bilinear at this
    rw [mass_at ap pb h.grid dof hn y c hc, mass_at ap pb h.grid dof hn _ c hc] at this
    rw [← this]
    simp [content, inCells]
  have e2 : ∀ c ∈ pb.cells, f1 * content pb (inCells dof fun i => -y i) c +
      b * LocalOp.Spec.total (residualCalls ap (homogeneous pb) (inCells dof fun i => -y i)) c.id = 0 := by
    intro c hc
    have a1 := total_residual_sub ap pb (fun _ => 0) (inCells dof y) c.id
    have a2 := total_residual_sub ap pb (inCells dof y) (fun _ => 0) c.id
    have s1 : (fun k => inCells dof y k - 0) = inCells dof y := by funext k; exact sub_zero _
    have s2 : (fun k => 0 - inCells dof y k) = inCells dof fun i => -y i := by funext k; exact zero_sub _
    rw [s1] at a2
    rw [s2] at a1
    have e := e1 c hc
    have m : content pb (inCells dof fun i => -y i) c = -content pb (inCells dof y) c := by
      unfold content inCells
      ring
    rw [m, ← a1]
    rw [← a2] at e
    linear_combination -e
  have a := homogeneous_step_le ap pb h f1 b h1 hb _ e1 c hc
  have b := homogeneous_step_le ap pb h f1 b h1 hb _ e2 c hc
  exact le_antisymm a (neg_nonpos.mp b)

/-- The equations of a stage, cell by cell. -/
theorem stage_iff (ap : Bool) (pb : Transient K P Q d) (h : ∀ τ, WellPosed ap (pb.at τ)) (dof : Nat → I) (hn : Numbering pb.base.cells dof)
    (S : OneStep.Setting K) (x : Nat → I → K) :
    (∀ w, stageForm S (pb.spatial ap dof) (pb.temporal ap dof) (pb.trace ap) x w = 0) ↔ ∀ c ∈ pb.base.cells, ∑ s ∈ Finset.range (S.stage + 1),
      (S.scheme.a S.stage s * (OneStep.factors S.mode S.dt).2 * content pb.base (inCells dof (x s)) c +
       S.scheme.b S.stage s * (OneStep.factors S.mode S.dt).1 * cellLoss ap (pb.at (S.time + S.scheme.d s * S.dt)) (inCells dof (x s)) c) = 0 := by
  have hg : ProperGrid ap pb.base.cells := (h 0).grid
  have hform : ∀ w, stageForm S (pb.spatial ap dof) (pb.temporal ap dof) (pb.trace ap) x w = ∑ i, w i * ∑ s ∈ Finset.range (S.stage + 1),
      (S.scheme.a S.stage s * (OneStep.factors S.mode S.dt).2 *
        LocalOp.Spec.total ((massCalls ap pb.base (inCells dof (x s))).map fun c => (dof c.1, c.2)) i +
       S.scheme.b S.stage s * (OneStep.factors S.mode S.dt).1 *
        LocalOp.Spec.total ((residualCalls ap (pb.at (S.time + S.scheme.d s * S.dt)) (inCells dof (x s))).map fun c => (dof c.1, c.2)) i) := by
    intro w
    unfold stageForm
    simp only [Finset.mul_sum]
    rw [Finset.sum_comm]
    refine Finset.sum_congr rfl fun s _ => ?_
    rw [parts_spatial, parts_temporal, form_fv, form_temporal]
    unfold tested
    rw [Finset.mul_sum, Finset.mul_sum, ← Finset.sum_add_distrib]
    exact Finset.sum_congr rfl fun i _ => by ring
  have hcell : ∀ c ∈ pb.base.cells, ∑ s ∈ Finset.range (S.stage + 1),
      (S.scheme.a S.stage s * (OneStep.factors S.mode S.dt).2 *
        LocalOp.Spec.total ((massCalls ap pb.base (inCells dof (x s))).map fun c => (dof c.1, c.2)) (dof c.id) +
       S.scheme.b S.stage s * (OneStep.factors S.mode S.dt).1 *
        LocalOp.Spec.total ((residualCalls ap (pb.at (S.time + S.scheme.d s * S.dt)) (inCells dof (x s))).map fun c => (dof c.1, c.2)) (dof c.id)) =
      ∑ s ∈ Finset.range (S.stage + 1),
      (S.scheme.a S.stage s * (OneStep.factors S.mode S.dt).2 * content pb.base (inCells dof (x s)) c +
       S.scheme.b S.stage s * (OneStep.factors S.mode S.dt).1 * cellLoss ap (pb.at (S.time + S.scheme.d s * S.dt)) (inCells dof (x s)) c) := by
    intro c hc
    refine Finset.sum_congr rfl fun s _ => ?_
    rw [total_mass_dof ap pb.base hg dof hn _ c hc, total_fv ap (pb.at _) (h _).grid dof hn _ c.id (List.mem_map_of_mem hc),
      loss_eq ap (pb.at _) (h _) _ c hc]
  constructor
  · intro hw c hc
    have := hw fun i => if i = dof c.id then 1 else 0
    rw [hform] at this
    simp only [ite_mul, one_mul, zero_mul, Finset.sum_ite_eq', Finset.mem_univ, if_true] at this
    rw [← hcell c hc]
    exact this
  · intro hc w
    rw [hform]
    refine Finset.sum_eq_zero fun i _ => ?_
    obtain ⟨k, hk, rfl⟩ := hn.surjective i
    obtain ⟨c, hcm, rfl⟩ := List.mem_map.mp hk
    rw [hcell c hcm, hc c hcm, mul_zero]

end transient
end Verif.CCFVSolve
