import Verif.Spec.CCFV
import Verif.Proofs.LocalOperator
import Mathlib.Algebra.Order.Field.Basic
import Mathlib.Tactic.Ring
import Mathlib.Tactic.Linarith
import Mathlib.Tactic.LinearCombination
import Mathlib.Tactic.FieldSimp
import Mathlib.Tactic.Abel
import Mathlib.Tactic.Positivity
namespace Verif
open LocalOp LocalOp.Spec LocalOp.CCFV Matrix GridAssembler

section
variable {K P Q : Type} [Field K] [LinearOrder K] {d : Nat}

/-- The contributions of one intersection. -/
def isectCalls (ap : Bool) (pb : Problem K P Q d) (u : Nat → K) (c : Nat) (i : Isect) : Calls Nat K :=
  if IsInterior ap i then
    if c > i.outside then [(c, interiorFlux pb u c i.face i.outside), (i.outside, -interiorFlux pb u c i.face i.outside)] else []
  else if IsBoundary i then [(c, boundaryFlux pb u c i.face)] else []

/-- The contributions of one cell, up to entries that are zero. -/
theorem total_isect (ap : Bool) (pb : Problem K P Q d) (u : Nat → K) (c index : Nat) (i : Isect) (k : Nat) :
    total ((visitIsect engine ap c index i).flatMap (onEvent pb u)) k = total (isectCalls ap pb u c i) k := by
  have hskel : (alphaSkeleton pb.twoNorm (pb.faceGeo c i.face) (pb.cellGeo c) (pb.cellGeo i.outside) (pb.cellPar c)
      (pb.cellPar i.outside) (Sum.elim (fun _ => u c) fun _ => u i.outside)).map (fun e =>
        (Sum.elim (fun _ => c) (fun _ => i.outside) e.1, e.2))
      = [(c, interiorFlux pb u c i.face i.outside), (i.outside, -interiorFlux pb u c i.face i.outside)] := by
    simp only [alphaSkeleton, List.map_cons, List.map_nil, Sum.elim_inl, Sum.elim_inr]
    have hm : kAvg (kNormal ((pb.cellPar c).A (pb.cellGeo c).center) (pb.faceGeo c i.face).centerUnitOuterNormal)
        (kNormal ((pb.cellPar i.outside).A (pb.cellGeo i.outside).center) (pb.faceGeo c i.face).centerUnitOuterNormal)
        = meanDiffusion pb c i.face i.outside := rfl
    rw [hm]
    unfold interiorFlux faceVolume area normalVelocity cellCentre
    generalize meanDiffusion pb c i.face i.outside = m
    generalize pb.twoNorm _ = dist
    congr 1
    · refine Prod.ext rfl ?_
      dsimp only
      ring
    · congr 1
      refine Prod.ext rfl ?_
      dsimp only
      ring
  have hb : total ((alphaBoundary pb.twoNorm (pb.faceGeo c i.face) (pb.cellGeo c) (pb.cellPar c) (pb.facePar c i.face)
      fun _ => u c).map fun e => (c, e.2)) k = total [(c, boundaryFlux pb u c i.face)] k := by
    unfold alphaBoundary boundaryFlux
    dsimp only
    cases h : (pb.facePar c i.face).bctype (pb.faceGeo c i.face).center with
    | dirichlet =>
      simp only [List.map_cons, List.map_nil, total_cons, total_nil, add_zero, faceVolume, area, kNormal, normalDiffusion,
        normalVelocity, cellCentre]
      split
      · ring
      · rfl
    | neumann => simp [total_cons, total_nil, faceVolume, area]
    | outflow =>
      simp [total_cons, total_nil, faceVolume, area, normalVelocity]
    | none => simp [total_cons, total_nil]
  unfold visitIsect isectCalls classify visitFace IsInterior IsBoundary
  obtain ⟨face, nb, bd, out, oc, oi⟩ := i
  cases nb <;> cases bd <;> cases ap <;> cases oc <;> simp [engine, onEvent] <;>
    first
      | exact hb
      | (by_cases h : out < c
         · simp only [h, if_true]
           simp [onEvent, hskel]
         · simp [h])
      | rfl
      | skip

theorem total_loopIsects (ap : Bool) (pb : Problem K P Q d) (u : Nat → K) (c : Nat) (is : List Isect) (index k : Nat) :
    total ((loopIsects engine ap c index is).flatMap (onEvent pb u)) k
      = total (is.flatMap (isectCalls ap pb u c)) k := by
  induction is generalizing index with
  | nil => rfl
  | cons i is ih =>
    simp only [loopIsects, List.flatMap_append, List.flatMap_cons, total_append]
    rw [if_neg (by simp [engine]), List.flatMap_append, total_append, ih, total_isect]

/-- The contributions of one cell. -/
def cellCalls (ap : Bool) (pb : Problem K P Q d) (u : Nat → K) (c : Cell) : Calls Nat K :=
  (c.id, production pb u c.id) :: c.isects.flatMap (isectCalls ap pb u c.id)

theorem total_residualCalls (ap : Bool) (pb : Problem K P Q d) (u : Nat → K) (k : Nat) :
    total (residualCalls ap pb u) k = total (pb.cells.flatMap (cellCalls ap pb u)) k := by
  unfold residualCalls assemble
  rw [List.flatMap_append, List.flatMap_append, total_append, total_append]
  have h0 : ∀ e : Event, e.kind = .preAssembly ∨ e.kind = .postAssembly →
      total ([e].flatMap (onEvent pb u)) k = 0 := by
    rintro e (h | h) <;> simp [onEvent, h, total_nil]
  rw [h0 _ (.inl rfl), h0 _ (.inr rfl), zero_add, add_zero, List.flatMap_assoc, total_flatMap, total_flatMap]
  congr 1
  refine List.map_congr_left fun c _ => ?_
  unfold visitCell
  rw [if_neg (by simp [engine])]
  simp only [List.flatMap_append, total_append]
  rw [if_pos (by simp [engine]), total_loopIsects]
  simp only [cellCalls, total_cons]
  simp [engine, onEvent, alphaVolume, lambdaVolume, total_cons, total_nil]
  split
  · simp only [production]; ring
  · ring

/-! ### Sums over sets of cells -/

/-- The sum of the entries of the residual over a list of cells. -/
def mass (S : List Nat) (l : Calls Nat K) : K := (S.map (total l)).sum

omit [LinearOrder K] in
theorem mass_nil (S : List Nat) : mass S ([] : Calls Nat K) = 0 := by
  unfold mass
  induction S with
  | nil => rfl
  | cons k S ih => rw [List.map_cons, List.sum_cons, ih, total_nil, zero_add]

omit [LinearOrder K] in
theorem mass_cons (S : List Nat) (hS : S.Nodup) (e : Nat × K) (l : Calls Nat K) :
    mass S (e :: l) = (if e.1 ∈ S then e.2 else 0) + mass S l := by
  unfold mass
  have h := sum_map_ite_mem S hS e.1 (fun _ => e.2)
  rw [← h, ← List.sum_map_add]
  congr 1
  refine List.map_congr_left fun k _ => ?_
  rw [total_cons]
  simp only [eq_comm]

omit [LinearOrder K] in
theorem mass_append (S : List Nat) (l l' : Calls Nat K) : mass S (l ++ l') = mass S l + mass S l' := by
  unfold mass
  rw [← List.sum_map_add]
  congr 1
  exact List.map_congr_left fun k _ => total_append ..

omit [LinearOrder K] in
theorem mass_flatMap {α : Type} (S : List Nat) (l : List α) (f : α → Calls Nat K) :
    mass S (l.flatMap f) = (l.map fun a => mass S (f a)).sum := by
  induction l with
  | nil => simp [mass_nil]
  | cons a l ih => simp [List.flatMap_cons, mass_append, ih]

theorem mass_residual (ap : Bool) (pb : Problem K P Q d) (u : Nat → K) (S : List Nat) :
    (S.map (total (residualCalls ap pb u))).sum = mass S (pb.cells.flatMap (cellCalls ap pb u)) := by
  unfold mass
  congr 1
  exact List.map_congr_left fun k _ => total_residualCalls ..

theorem mass_balance (ap : Bool) (pb : Problem K P Q d) (hg : ProperGrid ap pb.cells) (u : Nat → K) :
    ((ids pb.cells).map (total (residualCalls ap pb u))).sum
      = (pb.cells.map fun c => production pb u c.id + cellBoundaryFlux pb u c).sum := by
  rw [mass_residual, mass_flatMap]
  congr 1
  refine List.map_congr_left fun c hc => ?_
  have hcm : c.id ∈ ids pb.cells := List.mem_map_of_mem hc
  rw [cellCalls, mass_cons _ hg.nodup, if_pos hcm, mass_flatMap]
  congr 1
  have hout := hg.outside_mem c hc
  unfold cellBoundaryFlux
  generalize c.isects = is at hout ⊢
  induction is with
  | nil => rfl
  | cons i is ih =>
    rw [List.map_cons, List.sum_cons, ih fun i hi => hout i (List.mem_cons_of_mem _ hi)]
    have hi := hout i List.mem_cons_self
    by_cases h1 : IsInterior ap i
    · have hb : ¬ IsBoundary i := fun hb => by simp [IsInterior, hb.1] at h1
      rw [List.filter_cons_of_neg (by simpa using hb)]
      have : mass (ids pb.cells) (isectCalls ap pb u c.id i) = 0 := by
        unfold isectCalls
        rw [if_pos h1]
        split
        · rw [mass_cons _ hg.nodup, mass_cons _ hg.nodup, if_pos hcm, if_pos (hi h1), mass_nil]
          ring
        · exact mass_nil _
      rw [this, zero_add]
    · by_cases hb : IsBoundary i
      · rw [List.filter_cons_of_pos (by simpa using hb)]
        simp only [List.map_cons, List.sum_cons]
        congr 1
        unfold isectCalls
        rw [if_neg h1, if_pos hb, mass_cons _ hg.nodup, if_pos hcm, mass_nil, add_zero]
      · rw [List.filter_cons_of_neg (by simpa using hb)]
        unfold isectCalls
        rw [if_neg h1, if_neg hb, mass_nil, zero_add]

/-! ### One cell -/

theorem interiorFlux_antisymm (ap : Bool) (pb : Problem K P Q d) [IsStrictOrderedRing K]
    (hc : ConsistentFaces ap pb) (u : Nat → K) (c : Cell)
    (hm : c ∈ pb.cells) (i : Isect) (hi : i ∈ c.isects) (h : IsInterior ap i) :
    -interiorFlux pb u i.outside i.face c.id = interiorFlux pb u c.id i.face i.outside := by
  have hA := hc.area_eq c hm i hi h
  have hn := hc.normal_eq c hm i hi h
  have hv : normalVelocity pb i.outside i.face = -normalVelocity pb c.id i.face := by
    unfold normalVelocity
    rw [hc.velocity_eq c hm i hi h, hn, dotProduct_neg]
  have hd : ∀ k, normalDiffusion pb i.outside i.face k = normalDiffusion pb c.id i.face k := by
    intro k
    unfold normalDiffusion
    rw [hn, mulVec_neg, neg_dotProduct_neg]
  have hk : meanDiffusion pb i.outside i.face c.id = meanDiffusion pb c.id i.face i.outside := by
    unfold meanDiffusion
    rw [hd, hd, add_comm]
  have hdist : pb.twoNorm (cellCentre pb i.outside - cellCentre pb c.id)
      = pb.twoNorm (cellCentre pb c.id - cellCentre pb i.outside) := by
    rw [← hc.norm_neg, neg_sub]
  unfold interiorFlux
  rw [hA, hv, hk, hdist]
  rcases lt_trichotomy (normalVelocity pb c.id i.face) 0 with hlt | heq | hgt
  · rw [if_pos (by linarith), if_neg (by linarith)]; ring
  · rw [heq]; simp; ring
  · rw [if_neg (by linarith), if_pos (by linarith)]; ring

omit [LinearOrder K] in
/-- A sum over the cells to which only the cell `c` contributes. -/
theorem sum_only (cells : List Cell) (hn : (ids cells).Nodup) (c : Cell) (hc : c ∈ cells) (v : Cell → K) :
    (cells.map fun c' => if c'.id = c.id then v c' else 0).sum = v c := by
  induction cells with
  | nil => simp at hc
  | cons a l ih =>
    unfold ids at hn
    rw [List.map_cons, List.nodup_cons] at hn
    rw [List.map_cons, List.sum_cons]
    rcases List.mem_cons.mp hc with rfl | hc'
    · rw [if_pos rfl]
      have : (l.map fun c' => if c'.id = c.id then v c' else 0) = l.map fun _ => (0 : K) := by
        refine List.map_congr_left fun c' h' => ?_
        rw [if_neg]
        intro h
        exact hn.1 (h ▸ List.mem_map_of_mem h')
      rw [this]
      simp
    · rw [if_neg, zero_add, ih hn.2 hc']
      intro h
      exact hn.1 (h ▸ List.mem_map_of_mem hc')

/-- What an intersection of cell `c'` contributes to cell `k`. -/
theorem total_isectCalls (ap : Bool) (pb : Problem K P Q d) (u : Nat → K) (c' : Nat) (i : Isect) (k : Nat) :
    total (isectCalls ap pb u c' i) k =
      (if c' = k then
        (if IsInterior ap i then if k > i.outside then interiorFlux pb u k i.face i.outside else 0 else 0) +
        (if IsBoundary i then boundaryFlux pb u k i.face else 0)
      else 0) +
      (if IsInterior ap i ∧ i.outside = k then if c' > k then -interiorFlux pb u c' i.face k else 0 else 0) := by
  unfold isectCalls
  by_cases h1 : IsInterior ap i
  · have hb : ¬ IsBoundary i := fun hb => by simp [IsInterior, hb.1] at h1
    simp only [h1, hb, if_true, if_false, true_and, add_zero]
    by_cases hgt : c' > i.outside
    · rw [if_pos hgt]
      simp only [total_cons, total_nil, add_zero]
      by_cases hk : c' = k
      · subst hk
        have h3 : ¬ i.outside = c' := by omega
        simp [hgt, h3]
      · by_cases h3 : i.outside = k
        · subst h3
          simp [hk, hgt]
        · simp [hk, h3]
    · rw [if_neg hgt, total_nil]
      by_cases hk : c' = k
      · subst hk
        simp [hgt]
      · by_cases h3 : i.outside = k
        · subst h3
          simp [hk, hgt]
        · simp [hk, h3]
  · by_cases hb : IsBoundary i
    · simp only [h1, hb, if_true, if_false, false_and, add_zero, zero_add, total_cons, total_nil]
      by_cases hk : c' = k
      · subst hk; simp
      · simp [hk]
    · simp [h1, hb, total_nil]

omit [LinearOrder K] in
theorem sum_ite_filter {α : Type} (l : List α) (p : α → Prop) [DecidablePred p] (v : α → K) :
    (l.map fun a => if p a then v a else 0).sum = ((l.filter p).map v).sum := by
  induction l with
  | nil => rfl
  | cons a l ih => by_cases h : p a <;> simp [h, ih]

omit [LinearOrder K] in
theorem sum_flatMap' {α : Type} (l : List α) (f : α → List K) : (l.flatMap f).sum = (l.map fun a => (f a).sum).sum := by
  induction l with
  | nil => rfl
  | cons a l ih => simp [ih]

theorem cell_balance [IsStrictOrderedRing K] (ap : Bool) (pb : Problem K P Q d) (hg : ProperGrid ap pb.cells)
    (hs : SharedFaces ap pb.cells)
    (hc : ConsistentFaces ap pb) (u : Nat → K) (c : Cell) (hm : c ∈ pb.cells) :
    total (residualCalls ap pb u) c.id
      = production pb u c.id + cellInteriorFlux ap pb u c + cellBoundaryFlux pb u c := by
  rw [total_residualCalls, total_flatMap]
  have hterm : ∀ c' ∈ pb.cells, total (cellCalls ap pb u c') c.id =
      (if c'.id = c.id then production pb u c.id +
          (c'.isects.map fun i =>
            (if IsInterior ap i then if c.id > i.outside then interiorFlux pb u c.id i.face i.outside else 0 else 0) +
            (if IsBoundary i then boundaryFlux pb u c.id i.face else 0)).sum
        else 0) +
      (((c'.isects.filter fun i => IsInterior ap i ∧ i.outside = c.id).map fun i => (c'.id, i.face)).map fun p =>
        if p.1 > c.id then -interiorFlux pb u p.1 p.2 c.id else 0).sum := by
    intro c' _
    rw [cellCalls, total_cons, total_flatMap]
    simp only [total_isectCalls]
    rw [List.sum_map_add, List.map_map]
    have e2 := sum_ite_filter (K := K) c'.isects (fun i => IsInterior ap i ∧ i.outside = c.id)
      (fun i => if c'.id > c.id then -interiorFlux pb u c'.id i.face c.id else 0)
    rw [e2]
    by_cases h : c'.id = c.id
    · simp only [h, if_true, Function.comp_def]
      ring
    · simp only [h, if_false, Function.comp_def, List.map_const', List.sum_replicate]
      simp
  rw [List.map_congr_left hterm, List.sum_map_add]
  rw [sum_only pb.cells hg.nodup c hm]
  have h2 : (pb.cells.map fun c' => (((c'.isects.filter fun i => IsInterior ap i ∧ i.outside = c.id).map fun i =>
        (c'.id, i.face)).map fun p => if p.1 > c.id then -interiorFlux pb u p.1 p.2 c.id else 0).sum).sum
      = (((c.isects.filter (IsInterior ap)).map fun i => (i.outside, i.face)).map fun p =>
          if p.1 > c.id then -interiorFlux pb u p.1 p.2 c.id else 0).sum := by
    rw [← ((hs c hm).map _).sum_eq, List.map_flatMap, sum_flatMap']
  rw [h2, List.map_map, List.sum_map_add, sum_ite_filter c.isects (IsInterior ap), sum_ite_filter c.isects IsBoundary]
  unfold cellInteriorFlux cellBoundaryFlux
  have h3 : ((c.isects.filter (IsInterior ap)).map fun i => interiorFlux pb u c.id i.face i.outside).sum
      = ((c.isects.filter (IsInterior ap)).map fun i =>
          if c.id > i.outside then interiorFlux pb u c.id i.face i.outside else 0).sum +
        ((c.isects.filter (IsInterior ap)).map ((fun p : Nat × Nat =>
          if p.1 > c.id then -interiorFlux pb u p.1 p.2 c.id else 0) ∘ fun i => (i.outside, i.face))).sum := by
    rw [← List.sum_map_add]
    congr 1
    refine List.map_congr_left fun i hi => ?_
    rw [List.mem_filter] at hi
    have hint : IsInterior ap i := by simpa using hi.2
    have hne := hg.not_self c hm i hi.1 hint
    have ha := interiorFlux_antisymm ap pb hc u c hm i hi.1 hint
    simp only [Function.comp_def]
    rcases Nat.lt_or_gt_of_ne hne with h | h
    · rw [if_pos (by omega), if_neg (by omega), add_zero]
    · rw [if_neg (by omega), if_pos (by omega), zero_add, ha]
  rw [h3]
  ring

/-! ### Positivity -/

theorem total_temporalCalls (ap : Bool) (pb : Problem K P Q d) (hn : (ids pb.cells).Nodup) (u : Nat → K) (c : Cell)
    (hm : c ∈ pb.cells) :
    total (temporalCalls ap pb u) c.id = pb.capacity c.id (pb.cellGeo c.id).center * u c.id * (pb.cellGeo c.id).volume := by
  unfold temporalCalls assemble
  rw [List.flatMap_append, List.flatMap_append, total_append, total_append]
  have h0 : ∀ e : Event, e.kind = .preAssembly ∨ e.kind = .postAssembly →
      total ([e].flatMap (onEventTemporal pb u)) c.id = 0 := by
    rintro e (h | h) <;> simp [onEventTemporal, h, total_nil]
  rw [h0 _ (.inl rfl), h0 _ (.inr rfl), zero_add, add_zero, List.flatMap_assoc, total_flatMap]
  rw [← sum_only pb.cells hn c hm fun c' =>
    pb.capacity c'.id (pb.cellGeo c'.id).center * u c'.id * (pb.cellGeo c'.id).volume]
  congr 1
  refine List.map_congr_left fun c' _ => ?_
  simp [visitCell, temporalEngine, onEventTemporal, temporalAlphaVolume, total_cons, total_nil]

variable [IsStrictOrderedRing K]

theorem meanDiffusion_nonneg (pb : Problem K P Q d) (c f o : Nat) (h1 : 0 ≤ normalDiffusion pb c f c)
    (h2 : 0 ≤ normalDiffusion pb c f o) : 0 ≤ meanDiffusion pb c f o := by
  unfold meanDiffusion
  positivity

theorem mass_isect_nonpos (ap : Bool) (pb : Problem K P Q d) (hg : ProperGrid ap pb.cells) (hd : StableData pb) (hs : NonnegativeSources pb)
    (u : Nat → K) (c : Cell) (hm : c ∈ pb.cells) (i : Isect) (hi : i ∈ c.isects) :
    mass ((ids pb.cells).filter fun k => u k < 0) (isectCalls ap pb u c.id i) ≤ 0 := by
  have hS : ((ids pb.cells).filter fun k => u k < 0).Nodup := hg.nodup.filter _
  have hcm : c.id ∈ ids pb.cells := List.mem_map_of_mem hm
  have harea := hd.area_nonneg c hm i hi
  have hk := hd.diffusion_nonneg c hm i hi
  unfold isectCalls
  by_cases h1 : IsInterior ap i
  · have hom := hg.outside_mem c hm i hi h1
    rw [if_pos h1]
    split
    · rw [mass_cons _ hS, mass_cons _ hS, mass_nil]
      simp only [List.mem_filter, hcm, hom, true_and, decide_eq_true_eq, add_zero]
      have hmd := meanDiffusion_nonneg pb c.id i.face i.outside hk.1 hk.2
      have hdist := hd.norm_nonneg (cellCentre pb c.id - cellCentre pb i.outside)
      unfold interiorFlux
      generalize meanDiffusion pb c.id i.face i.outside = m at hmd
      generalize pb.twoNorm (cellCentre pb c.id - cellCentre pb i.outside) = dist at hdist
      generalize area (pb.faceGeo c.id i.face) = a at harea
      generalize normalVelocity pb c.id i.face = vn
      by_cases hc0 : u c.id < 0 <;> by_cases ho0 : u i.outside < 0
      · rw [if_pos hc0, if_pos ho0]; apply le_of_eq; ring
      · rw [if_pos hc0, if_neg ho0, add_zero]
        apply mul_nonpos_of_nonpos_of_nonneg _ harea
        have e1 : m * (u c.id - u i.outside) / dist ≤ 0 :=
          div_nonpos_of_nonpos_of_nonneg (mul_nonpos_of_nonneg_of_nonpos hmd (by linarith [not_lt.mp ho0])) hdist
        have e2 : (if vn ≥ 0 then u c.id else u i.outside) * vn ≤ 0 := by
          split
          · exact mul_nonpos_of_nonpos_of_nonneg hc0.le ‹_›
          · exact mul_nonpos_of_nonneg_of_nonpos (not_lt.mp ho0) (le_of_lt (not_le.mp ‹_›))
        linarith
      · rw [if_neg hc0, if_pos ho0, zero_add]
        apply neg_nonpos_of_nonneg
        apply mul_nonneg _ harea
        have e1 : 0 ≤ m * (u c.id - u i.outside) / dist :=
          div_nonneg (mul_nonneg hmd (by linarith [not_lt.mp hc0])) hdist
        have e2 : 0 ≤ (if vn ≥ 0 then u c.id else u i.outside) * vn := by
          split
          · exact mul_nonneg (not_lt.mp hc0) ‹_›
          · exact mul_nonneg_of_nonpos_of_nonpos ho0.le (le_of_lt (not_le.mp ‹_›))
        linarith
      · rw [if_neg hc0, if_neg ho0]; simp
    · rw [mass_nil]
  · rw [if_neg h1]
    by_cases hb : IsBoundary i
    · rw [if_pos hb, mass_cons _ hS, mass_nil, add_zero]
      split
      · rename_i hmem
        simp only [List.mem_filter, hcm, true_and, decide_eq_true_eq] at hmem
        have hD := hd.dirichlet c hm i hi hb
        have hN := hs.neumann c hm i hi hb
        have hDs := hs.dirichlet c hm i hi hb
        have hOs := hs.outflow c hm i hi hb
        have hO := hd.outflow c hm i hi hb
        unfold boundaryFlux
        cases hbc : (pb.facePar c.id i.face).bctype (pb.faceGeo c.id i.face).center with
        | dirichlet =>
          have hv := hD hbc
          have hgn := hDs hbc
          dsimp only
          apply mul_nonpos_of_nonpos_of_nonneg _ harea
          have e1 := mul_nonpos_of_nonpos_of_nonneg hv hgn
          have e2 : normalDiffusion pb c.id i.face c.id * (u c.id - (pb.cellPar c.id).g
              ((pb.faceGeo c.id i.face).inInside (pb.faceGeo c.id i.face).center)) /
              pb.twoNorm (cellCentre pb c.id - (pb.faceGeo c.id i.face).global (pb.faceGeo c.id i.face).center) ≤ 0 :=
            div_nonpos_of_nonpos_of_nonneg (mul_nonpos_of_nonneg_of_nonpos hk.1 (by linarith)) (hd.norm_nonneg _)
          linarith
        | neumann => exact mul_nonpos_of_nonpos_of_nonneg (hN hbc) harea
        | outflow =>
          have hv := hO hbc
          have ho := hOs hbc
          apply mul_nonpos_of_nonpos_of_nonneg _ harea
          have e1 := mul_nonpos_of_nonneg_of_nonpos hv hmem.le
          linarith
        | none => exact le_refl _
      · exact le_refl _
    · rw [if_neg hb, mass_nil]

theorem sum_nonpos_of_le {α : Type} (l : List α) (v : α → K) (h : ∀ a ∈ l, v a ≤ 0) : (l.map v).sum ≤ 0 := by
  induction l with
  | nil => simp
  | cons a l ih =>
    rw [List.map_cons, List.sum_cons]
    have := h a List.mem_cons_self
    have := ih fun b hb => h b (List.mem_cons_of_mem _ hb)
    linarith

theorem sum_neg_of_lt {α : Type} (l : List α) (v : α → K) (h : ∀ a ∈ l, v a < 0) (hne : l ≠ []) : (l.map v).sum < 0 := by
  cases l with
  | nil => exact absurd rfl hne
  | cons a l =>
    rw [List.map_cons, List.sum_cons]
    have := h a List.mem_cons_self
    have := sum_nonpos_of_le l v fun b hb => (h b (List.mem_cons_of_mem _ hb)).le
    linarith

theorem mass_residual_nonpos (ap : Bool) (pb : Problem K P Q d) (hg : ProperGrid ap pb.cells) (hd : StableData pb) (hs : NonnegativeSources pb)
    (u : Nat → K) : (((ids pb.cells).filter fun k => u k < 0).map (total (residualCalls ap pb u))).sum ≤ 0 := by
  have hS : ((ids pb.cells).filter fun k => u k < 0).Nodup := hg.nodup.filter _
  rw [mass_residual, mass_flatMap]
  refine sum_nonpos_of_le _ _ fun c hm => ?_
  have hcm : c.id ∈ ids pb.cells := List.mem_map_of_mem hm
  rw [cellCalls, mass_cons _ hS, mass_flatMap]
  have h2 := sum_nonpos_of_le c.isects (fun i => mass ((ids pb.cells).filter fun k => u k < 0) (isectCalls ap pb u c.id i))
    fun i hi => mass_isect_nonpos ap pb hg hd hs u c hm i hi
  have h1 : (if c.id ∈ (ids pb.cells).filter fun k => u k < 0 then production pb u c.id else 0) ≤ 0 := by
    split
    · rename_i hmem
      simp only [List.mem_filter, hcm, true_and, decide_eq_true_eq] at hmem
      unfold production
      apply mul_nonpos_of_nonpos_of_nonneg _ (hd.volume_pos c hm).le
      have := mul_nonpos_of_nonneg_of_nonpos (hd.reaction_nonneg c hm) hmem.le
      have := hs.source c hm
      linarith
    · exact le_refl _
  simp only at h1 h2 ⊢
  linarith

theorem positivity (ap : Bool) (pb : Problem K P Q d) (hg : ProperGrid ap pb.cells) (hd : StableData pb) (hs : NonnegativeSources pb)
    (dt : K) (hdt : 0 ≤ dt) (uold u : Nat → K) (hold : ∀ c ∈ pb.cells, 0 ≤ uold c.id)
    (hsol : ImplicitEulerStep (fun v => total (temporalCalls ap pb v)) (fun v => total (residualCalls ap pb v)) pb.cells dt
      uold u) :
    ∀ c ∈ pb.cells, 0 ≤ u c.id := by
  by_contra hneg
  push Not at hneg
  obtain ⟨c, hm, hc⟩ := hneg
  have hcm : c.id ∈ (ids pb.cells).filter fun k => u k < 0 := by
    rw [List.mem_filter]
    exact ⟨List.mem_map_of_mem hm, by simpa using hc⟩
  have h1 := mass_residual_nonpos ap pb hg hd hs u
  have h2 : (((ids pb.cells).filter fun k => u k < 0).map fun k => -(dt * total (residualCalls ap pb u) k)).sum < 0 := by
    refine sum_neg_of_lt _ _ (fun k hk => ?_) (List.ne_nil_of_mem hcm)
    rw [List.mem_filter] at hk
    obtain ⟨hk1, hk2⟩ := hk
    have hk2' : u k < 0 := by simpa using hk2
    obtain ⟨c', hm', rfl⟩ := List.mem_map.mp hk1
    have := hsol c' hm'
    simp only at this
    rw [total_temporalCalls ap pb hg.nodup u c' hm', total_temporalCalls ap pb hg.nodup uold c' hm'] at this
    have hcap := hd.capacity_pos c' hm'
    have hvol := hd.volume_pos c' hm'
    have e1 : pb.capacity c'.id (pb.cellGeo c'.id).center * u c'.id * (pb.cellGeo c'.id).volume < 0 :=
      mul_neg_of_neg_of_pos (mul_neg_of_pos_of_neg hcap hk2') hvol
    have e2 : 0 ≤ pb.capacity c'.id (pb.cellGeo c'.id).center * uold c'.id * (pb.cellGeo c'.id).volume :=
      mul_nonneg (mul_nonneg hcap.le (hold c' hm')) hvol.le
    linarith
  have h3 : ((((ids pb.cells).filter fun k => u k < 0).map fun k => -(dt * total (residualCalls ap pb u) k)).sum)
      = -(dt * (((ids pb.cells).filter fun k => u k < 0).map (total (residualCalls ap pb u))).sum) := by
    generalize (ids pb.cells).filter _ = S
    induction S with
    | nil => simp
    | cons k S ih => rw [List.map_cons, List.sum_cons, List.map_cons, List.sum_cons, ih]; ring
  rw [h3] at h2
  have h4 := mul_nonpos_of_nonneg_of_nonpos hdt h1
  linarith

/-! ### Uniqueness -/

/-- The problem without sources and with homogeneous boundary values. -/
def homogeneous (pb : Problem K P Q d) : Problem K P Q d :=
  { pb with
    cellPar := fun c => { pb.cellPar c with f := fun _ => 0, g := fun _ => 0 }
    facePar := fun c f => { pb.facePar c f with j := fun _ => 0, o := fun _ => 0 } }

omit [IsStrictOrderedRing K] in
theorem total_isectCalls_sub (ap : Bool) (pb : Problem K P Q d) (u v : Nat → K) (c : Nat) (i : Isect) (k : Nat) :
    total (isectCalls ap pb u c i) k - total (isectCalls ap pb v c i) k
      = total (isectCalls ap (homogeneous pb) (fun k => u k - v k) c i) k := by
  have hi : ∀ c f o, interiorFlux (homogeneous pb) (fun k => u k - v k) c f o
      = interiorFlux pb u c f o - interiorFlux pb v c f o := by
    intro c f o
    have e1 : normalVelocity (homogeneous pb) c f = normalVelocity pb c f := rfl
    have e2 : meanDiffusion (homogeneous pb) c f o = meanDiffusion pb c f o := rfl
    have e3 : (homogeneous pb).twoNorm (cellCentre (homogeneous pb) c - cellCentre (homogeneous pb) o)
      = pb.twoNorm (cellCentre pb c - cellCentre pb o) := rfl
    have e4 : area ((homogeneous pb).faceGeo c f) = area (pb.faceGeo c f) := rfl
    unfold interiorFlux
    rw [e1, e2, e3, e4]
    split <;> ring
  have hb : ∀ c f, boundaryFlux (homogeneous pb) (fun k => u k - v k) c f = boundaryFlux pb u c f - boundaryFlux pb v c f := by
    intro c f
    unfold boundaryFlux
    have e0 : ((homogeneous pb).facePar c f).bctype ((homogeneous pb).faceGeo c f).center
      = (pb.facePar c f).bctype (pb.faceGeo c f).center := rfl
    rw [e0]
    cases (pb.facePar c f).bctype (pb.faceGeo c f).center with
    | dirichlet =>
      simp only [homogeneous, normalVelocity, normalDiffusion, cellCentre]
      ring
    | neumann => simp [homogeneous]
    | outflow =>
      simp only [homogeneous, normalVelocity]
      ring
    | none => simp
  unfold isectCalls
  split
  · split
    · simp only [total_cons, total_nil, hi]
      split <;> split <;> ring
    · simp [total_nil]
  · split
    · simp only [total_cons, total_nil, hb]
      split <;> ring
    · simp [total_nil]

omit [IsStrictOrderedRing K] [LinearOrder K] in
theorem sum_map_sub' {α : Type} (l : List α) (f g : α → K) :
    (l.map f).sum - (l.map g).sum = (l.map fun a => f a - g a).sum := by
  induction l with
  | nil => simp
  | cons a l ih => simp only [List.map_cons, List.sum_cons, ← ih]; ring

omit [IsStrictOrderedRing K] in
theorem total_residual_sub (ap : Bool) (pb : Problem K P Q d) (u v : Nat → K) (k : Nat) :
    total (residualCalls ap pb u) k - total (residualCalls ap pb v) k
      = total (residualCalls ap (homogeneous pb) fun k => u k - v k) k := by
  rw [total_residualCalls, total_residualCalls, total_residualCalls, total_flatMap, total_flatMap, total_flatMap,
    sum_map_sub']
  have hcells : (homogeneous pb).cells = pb.cells := rfl
  rw [hcells]
  congr 1
  refine List.map_congr_left fun c _ => ?_
  simp only [cellCalls, total_cons, total_flatMap]
  have h : (c.isects.map fun i => total (isectCalls ap pb u c.id i) k).sum - (c.isects.map fun i => total (isectCalls ap pb v c.id i) k).sum
      = (c.isects.map fun i => total (isectCalls ap (homogeneous pb) (fun k => u k - v k) c.id i) k).sum := by
    rw [sum_map_sub']
    congr 1
    exact List.map_congr_left fun i _ => total_isectCalls_sub ..
  rw [← h]
  have hp : production (homogeneous pb) (fun k => u k - v k) c.id = production pb u c.id - production pb v c.id := by
    simp only [production, homogeneous]
    ring
  rw [hp]
  split <;> ring

theorem step_unique (ap : Bool) (pb : Problem K P Q d) (hg : ProperGrid ap pb.cells) (hd : StableData pb)
    (dt : K) (hdt : 0 ≤ dt) (uold u v : Nat → K)
    (hu : ImplicitEulerStep (fun v => total (temporalCalls ap pb v)) (fun v => total (residualCalls ap pb v)) pb.cells dt uold u)
    (hv : ImplicitEulerStep (fun v => total (temporalCalls ap pb v)) (fun v => total (residualCalls ap pb v)) pb.cells dt uold v) :
    ∀ c ∈ pb.cells, u c.id = v c.id := by
  have key : ∀ u v : Nat → K,
      ImplicitEulerStep (fun v => total (temporalCalls ap pb v)) (fun v => total (residualCalls ap pb v)) pb.cells dt uold u →
      ImplicitEulerStep (fun v => total (temporalCalls ap pb v)) (fun v => total (residualCalls ap pb v)) pb.cells dt uold v →
      ∀ c ∈ pb.cells, 0 ≤ u c.id - v c.id := by
    intro u v hu hv
    have hd0 : StableData (homogeneous pb) :=
      ⟨hd.volume_pos, hd.capacity_pos, hd.reaction_nonneg, hd.area_nonneg, hd.diffusion_nonneg, hd.norm_nonneg,
        hd.dirichlet, hd.outflow⟩
    have hs0 : NonnegativeSources (homogeneous pb) :=
      ⟨fun _ _ => le_refl _, fun _ _ _ _ _ _ => le_refl _, fun _ _ _ _ _ _ => le_refl _, fun _ _ _ _ _ _ => le_refl _⟩
    refine positivity ap (homogeneous pb) hg hd0 hs0 dt hdt (fun _ => 0) (fun k => u k - v k) (fun _ _ => le_refl _) ?_
    intro c hm
    have h1 := hu c hm
    have h2 := hv c hm
    simp only at h1 h2 ⊢
    rw [← total_residual_sub]
    rw [total_temporalCalls ap (homogeneous pb) hg.nodup _ c hm, total_temporalCalls ap (homogeneous pb) hg.nodup _ c hm]
    rw [total_temporalCalls ap pb hg.nodup _ c hm, total_temporalCalls ap pb hg.nodup _ c hm] at h1 h2
    have e : (homogeneous pb).capacity = pb.capacity := rfl
    have e' : (homogeneous pb).cellGeo = pb.cellGeo := rfl
    rw [e, e']
    linear_combination h1 - h2
  intro c hm
  have h1 := key u v hu hv c hm
  have h2 := key v u hv hu c hm
  linarith

end
end Verif
