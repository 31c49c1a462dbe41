import Verif.Proofs.BlockApply
namespace Verif.BlockOp
open GridAssembler LocalOp LocalOp.Spec Spec

variable {K : Type} [Field K]

/-! ### The point diagonal -/

theorem total_pointView (calls : Calls (LDof × LDof) K) (h : ∀ q ∈ calls, q.1.1.1 = q.1.2.1) (a : LDof) :
    total (pointView calls) a = total calls (a, a) := by
  induction calls with
  | nil => rfl
  | cons q l ih =>
    have ih' := ih fun q hq => h q (List.mem_cons_of_mem _ hq)
    have hq := h q (by simp)
    obtain ⟨⟨⟨r, i⟩, ⟨s, j⟩⟩, v⟩ := q
    simp only at hq
    subst hq
    unfold pointView at ih' ⊢
    rw [List.filter_cons, total_cons]
    by_cases hij : i = j
    · subst hij
      rw [if_pos (by simp), List.map_cons, total_cons, ih']
      simp
    · rw [if_neg (by simp [hij]), ih', if_neg, zero_add]
      intro e
      simp only [Prod.mk.injEq] at e
      exact hij (by rw [← e.2] at e; exact (congrArg Prod.snd e.1))

theorem total_fst (blk : Block) (l : Calls (Block × LDof × LDof) K) (k : LDof × LDof) (h : ∀ q ∈ l, q.1.1 = blk) :
    total (l.map fun c => (c.1.2, c.2)) k = total l (blk, k) := by
  induction l with
  | nil => rfl
  | cons q l ih =>
    rw [List.map_cons, total_cons, total_cons, ih fun q hq => h q (List.mem_cons_of_mem _ hq)]
    have hq := h q (by simp)
    obtain ⟨⟨b, k'⟩, v⟩ := q
    simp only at hq
    subst hq
    simp

theorem onlyBlock_mem (blk : Block) (l : Calls (Block × LDof × LDof) K) (q) (hq : q ∈ onlyBlock blk l) :
    q ∈ l ∧ q.1.1 = blk := by
  unfold onlyBlock at hq
  simpa using hq

theorem residualEvent_total (lop : Lop K) (hC : NoCoupling lop) (x : GDof → K) (e : Event) (k : Nat) (a : LDof) :
    total (residualEvent (pointDiagonal lop) x e) (k, a) =
      total (jacobianEvent (blockDiagonal lop) x e) ((k, a), (k, a)) := by
  obtain ⟨kind, c, f, index, o⟩ := e
  cases kind <;> try rfl
  · -- volume
    by_cases hv : lop.doAlphaVolume = true
    · have h1 : (pointDiagonal lop).doAlphaVolume = true := hv
      have h2 : (blockDiagonal lop).doAlphaVolume = true := hv
      simp only [residualEvent, jacobianEvent, h1, h2, if_true]
      rw [total_own, total_same]
      simp only [and_self]
      congr 1
      exact total_pointView _ (hC.volume _ _) a
    · have h1 : ¬ (pointDiagonal lop).doAlphaVolume = true := hv
      have h2 : ¬ (blockDiagonal lop).doAlphaVolume = true := hv
      simp only [residualEvent, jacobianEvent, h1, h2]
      rfl
  · -- skeleton
    by_cases hv : lop.doAlphaSkeleton = true
    · have h1 : (pointDiagonal lop).doAlphaSkeleton = true := hv
      have h2 : (blockDiagonal lop).doAlphaSkeleton = true := hv
      simp only [residualEvent, jacobianEvent, h1, h2, if_true]
      rw [total_blockIndex]
      simp only [pointDiagonal, blockDiagonal]
      rw [List.map_map]
      refine (total_own c _ k a).trans ?_
      simp only [total_onlyBlock, and_self, if_true, reduceCtorEq, if_false, ite_self, add_zero]
      congr 1
      rw [total_pointView, total_fst .ss, total_onlyBlock, if_pos rfl]
      · exact fun q hq => (onlyBlock_mem _ _ q hq).2
      · intro q hq
        obtain ⟨q', hq', rfl⟩ := List.mem_map.1 hq
        exact hC.skeleton _ _ _ _ _ _ (onlyBlock_mem _ _ _ hq').1
    · have h1 : ¬ (pointDiagonal lop).doAlphaSkeleton = true := hv
      have h2 : ¬ (blockDiagonal lop).doAlphaSkeleton = true := hv
      simp only [residualEvent, jacobianEvent, h1, h2]
      rfl
  · -- boundary
    by_cases hv : lop.doAlphaBoundary = true
    · have h1 : (pointDiagonal lop).doAlphaBoundary = true := hv
      have h2 : (blockDiagonal lop).doAlphaBoundary = true := hv
      simp only [residualEvent, jacobianEvent, h1, h2, if_true]
      rw [total_own, total_same]
      simp only [and_self]
      congr 1
      exact total_pointView _ (hC.boundary _ _ _) a
    · have h1 : ¬ (pointDiagonal lop).doAlphaBoundary = true := hv
      have h2 : ¬ (blockDiagonal lop).doAlphaBoundary = true := hv
      simp only [residualEvent, jacobianEvent, h1, h2]
      rfl

theorem residual_pointDiagonal (ap : Bool) (cells : List Cell) (lop : Lop K) (hC : NoCoupling lop) (x : GDof → K)
    (k : Nat) (a : LDof) :
    total (residualCalls ap cells (pointDiagonal lop) x) (k, a) =
      matrix ap cells (blockDiagonal lop) x (k, a) (k, a) := by
  unfold residualCalls matrix jacobianCalls
  rw [total_flatMap, total_flatMap]
  congr 1
  exact List.map_congr_left fun e _ => residualEvent_total lop hC x e k a

/-! ### One block -/

theorem total_loopFaces {ι : Type} [DecidableEq ι] (ap : Bool) (skeleton boundary : IG → Calls ι K) (c : Nat) (k : ι)
    (is : List Isect) (h : ∀ i ∈ is, ¬ (i.neighbor = true ∧ i.boundary = true)) (index : Nat) :
    total (loopFaces ap skeleton boundary c index is) k =
      ((is.zipIdx index).map fun p =>
        if IsInterior ap p.1 then total (skeleton ⟨c, p.1.face, p.2, p.1.outside⟩) k
        else if IsBoundary p.1 then total (boundary ⟨c, p.1.face, p.2, 0⟩) k else 0).sum := by
  induction is generalizing index with
  | nil => rfl
  | cons i is ih =>
    unfold loopFaces
    rw [total_append, ih (fun j hj => h j (List.mem_cons_of_mem _ hj)), List.zipIdx_cons, List.map_cons, List.sum_cons]
    congr 1
    have hi := h i (by simp)
    clear ih h
    obtain ⟨face, nb, bd, out, oc, oi⟩ := i
    unfold classify IsInterior IsBoundary
    cases nb <;> cases bd <;> cases ap <;> cases oc <;> simp_all [total_nil]

theorem total_all_blocks (l : Calls (Block × LDof × LDof) K) (k : LDof × LDof) :
    total (l.map fun c => (c.1.2, c.2)) k =
      total l (.ss, k) + total l (.sn, k) + total l (.ns, k) + total l (.nn, k) := by
  induction l with
  | nil => simp [total_nil]
  | cons q l ih =>
    rw [List.map_cons, total_cons, ih]
    simp only [total_cons]
    obtain ⟨⟨blk, k'⟩, v⟩ := q
    cases blk <;> simp only [Prod.mk.injEq, reduceCtorEq, true_and, false_and, if_false] <;> ring

theorem local_diagonal (ap : Bool) (cells : List Cell) (hg : ProperGrid ap cells) (hs : SharedFaces ap cells)
    (lop : Lop K) (x : GDof → K) (hT : PlainTerms lop) (hidx : IndexFree ap cells lop x)
    (h : (lop.twoSided = false ∧ SideSymmetric ap cells lop x) ∨ (lop.twoSided = true ∧ InsideOnly ap cells lop x))
    (hL : LocalDiagonal lop) (c : Cell) (hc : c ∈ cells) (hP : NotPeriodic c) (a b : LDof) :
    total (assembleLocalDiagonalBlock ap (blockDiagonal lop) c fun a => x (c.id, a)) (a, b) =
      matrix ap cells lop x (c.id, a) (c.id, b) := by
  rw [matrix_entry ap cells hg hs lop x hidx c hc, if_pos rfl]
  unfold assembleLocalDiagonalBlock
  rw [total_append, total_loopFaces _ _ _ _ _ _ hP]
  have hpair : ∀ i ∈ c.isects.filter (IsInterior ap), pairPart lop x c.id i.face i.outside c.id a b =
      faceBlock lop x c.id i.face 0 i.outside .ss a b := by
    intro i hi
    have hi' := List.mem_filter.1 hi
    have hint : IsInterior ap i := by simpa using hi'.2
    have hne : i.outside ≠ c.id := hg.not_self c hc i hi'.1 hint
    have hf : IsFace ap cells c.id i.face i.outside := ⟨c, hc, rfl, i, hi'.1, hint, rfl, rfl⟩
    rw [pairPart_value hf (isFace_back hs hc hi) hne h]
    simp [hT.skeleton, hne]
  rw [List.map_congr_left hpair, ← sum_ite_filter c.isects (IsInterior ap), ← sum_zipIdx c.isects 0]
  unfold ownTerms
  rw [if_pos hT.volume, if_neg (by simp [hT.post]), add_zero, add_assoc, ← List.sum_map_add]
  congr 1
  congr 1
  refine List.map_congr_left fun p hp => ?_
  by_cases hi : IsInterior ap p.1
  · have hf : IsFace ap cells c.id p.1.face p.1.outside :=
      ⟨c, hc, rfl, p.1, mem_zipIdx_fst _ _ _ hp, hi, rfl, rfl⟩
    simp only [hi, if_true, not_true_eq_false, false_and, if_false, zero_add]
    rw [total_all_blocks]
    simp only [blockDiagonal, total_onlyBlock, reduceCtorEq, if_true, if_false, add_zero]
    rw [← hidx _ _ _ hf p.2]
    unfold faceBlock
    exact hL _ _ _ _ _ _ _ _ _
  · simp only [hi, if_false, not_false_eq_true, true_and, add_zero, hT.boundary, and_true]
    rfl

theorem total_both_sides (l : Calls (Side × LDof) K) (k : LDof) :
    total (l.map fun c => (c.1.2, c.2)) k = total l (.s, k) + total l (.n, k) := by
  induction l with
  | nil => simp [total_nil]
  | cons q l ih =>
    rw [List.map_cons, total_cons, ih]
    simp only [total_cons]
    obtain ⟨⟨blk, k'⟩, v⟩ := q
    cases blk <;> simp only [Prod.mk.injEq, reduceCtorEq, true_and, false_and, if_false] <;> ring

theorem loopFaces_apply (ap : Bool) (lop : Lop K) (dofs : Nat → List LDof) (hA : ApplyIsJacobian lop dofs) (c : Nat)
    (x z : LDof → K) (is : List Isect) (index : Nat) :
    ∃ l, loopFaces? ap
      (fun ig => (callApplySkeleton lop ig c (linPoint lop x) z c (linPoint lop x) z).map fun l => l.map fun c => (c.1.2, c.2))
      (fun ig => callApplyBoundary lop ig c (linPoint lop x) z) c index is = some l ∧
      ∀ a, total l a = dot (dofs c) (fun b => total (loopFaces ap
        (fun ig => (lop.jacobianSkeleton ig c x c x).map fun c => (c.1.2, c.2))
        (fun ig => lop.jacobianBoundary ig c x) c index is) (a, b)) z := by
  induction is generalizing index with
  | nil => exact ⟨[], rfl, fun a => by simp [loopFaces, total_nil, dot_zero]⟩
  | cons i is ih =>
    obtain ⟨ls, hls, hts⟩ := ih (index + 1)
    cases hcl : classify ap i
    · refine ⟨ls, by simp [loopFaces?, hcl, hls], fun a => ?_⟩
      simp only [loopFaces, hcl, List.nil_append]
      exact hts a
    · obtain ⟨l, hl, ht, ht'⟩ := hA.skeleton ⟨c, i.face, index, i.outside⟩ c x z c x z
      refine ⟨(l.map fun c => (c.1.2, c.2)) ++ ls, ?_, fun a => ?_⟩
      · simp only [loopFaces?, hcl]
        rw [hls]
        unfold callApplySkeleton
        rw [if_pos (linPoint_fits lop x), hl]
        rfl
      · simp only [loopFaces, hcl]
        rw [total_append, total_both_sides, ht, ht', hts, ← add_assoc, ← dot_add, ← dot_add, ← dot_add, ← dot_add]
        refine dot_congr _ _ fun b _ => ?_
        rw [total_append, total_all_blocks]
    · obtain ⟨l, hl, ht⟩ := hA.boundary ⟨c, i.face, index, 0⟩ c x z
      refine ⟨l ++ ls, ?_, fun a => ?_⟩
      · simp only [loopFaces?, hcl]
        rw [hls]
        unfold callApplyBoundary
        rw [if_pos (linPoint_fits lop x), hl]
        rfl
      · simp only [loopFaces, hcl]
        rw [total_append, ht, hts, ← dot_add]
        refine dot_congr _ _ fun b _ => ?_
        rw [total_append]
    · refine ⟨ls, by simp [loopFaces?, hcl, hls], fun a => ?_⟩
      simp only [loopFaces, hcl, List.nil_append]
      exact hts a

theorem local_apply (ap : Bool) (lop : Lop K) (dofs : Nat → List LDof) (hA : ApplyIsJacobian lop dofs) (c : Cell)
    (x z : LDof → K) :
    ∃ l, applyLocalDiagonalBlock ap lop c x z = some l ∧
      ∀ a, total l a = dot (dofs c.id) (fun b => total (assembleLocalDiagonalBlock ap lop c x) (a, b)) z := by
  obtain ⟨v, hv, htv⟩ := hA.volume c.id x z
  obtain ⟨f, hf, htf⟩ := loopFaces_apply ap lop dofs hA c.id x z c.isects 0
  refine ⟨v ++ f, ?_, fun a => ?_⟩
  · unfold applyLocalDiagonalBlock
    dsimp only
    rw [hf]
    unfold callApplyVolume
    rw [if_pos (linPoint_fits lop x), hv]
    rfl
  · unfold assembleLocalDiagonalBlock
    rw [total_append, htv, htf, ← dot_add]
    refine dot_congr _ _ fun b _ => ?_
    rw [total_append]

theorem local_pointDiagonal (ap : Bool) (lop : Lop K) (hC : NoCoupling lop) (c : Cell) (x : LDof → K) (a : LDof) :
    total (assembleLocalPointDiagonal ap (pointDiagonal lop) c x) a =
      total (assembleLocalDiagonalBlock ap (blockDiagonal lop) c x) (a, a) := by
  unfold assembleLocalPointDiagonal assembleLocalDiagonalBlock
  rw [total_append, total_append]
  congr 1
  · exact total_pointView _ (hC.volume _ _) a
  · generalize c.isects = is
    generalize 0 = index
    induction is generalizing index with
    | nil => rfl
    | cons i is ih =>
      unfold loopFaces
      rw [total_append, total_append, ih]
      congr 1
      cases classify ap i
      · rfl
      · simp only [pointDiagonal, blockDiagonal]
        rw [List.map_map, show ((fun c : (Side × LDof) × K => (c.1.2, c.2)) ∘ fun c : LDof × K => ((Side.s, c.1), c.2)) =
          id from rfl, List.map_id, total_pointView]
        intro q hq
        obtain ⟨q', hq', rfl⟩ := List.mem_map.1 hq
        exact hC.skeleton _ _ _ _ _ _ (onlyBlock_mem _ _ _ hq').1
      · exact total_pointView _ (hC.boundary _ _ _) a
      · rfl

end Verif.BlockOp
