import Verif.Proofs.BlockOperators
import Verif.Proofs.GridAssembler
namespace Verif.BlockOp
open GridAssembler LocalOp LocalOp.Spec Spec

variable {K : Type} [Field K]

/-! ### Row times vector -/

theorem dot_add {D : Type} (dofs : List D) (r r' z : D → K) :
    dot dofs (fun b => r b + r' b) z = dot dofs r z + dot dofs r' z := by
  unfold dot
  rw [← List.sum_map_add]
  congr 1
  exact List.map_congr_left fun b _ => by ring

theorem dot_zero {D : Type} (dofs : List D) (z : D → K) : dot dofs (fun _ => 0) z = 0 := by
  unfold dot
  simp

theorem dot_zero_right {D : Type} (dofs : List D) (r : D → K) : dot dofs r (fun _ => 0) = 0 := by
  unfold dot
  simp

theorem dot_congr {D : Type} (dofs : List D) {r r' : D → K} (z : D → K) (h : ∀ b ∈ dofs, r b = r' b) :
    dot dofs r z = dot dofs r' z := by
  unfold dot
  congr 1
  exact List.map_congr_left fun b hb => by rw [h b hb]

theorem dot_ite {D : Type} (dofs : List D) (p : Prop) [Decidable p] (r z : D → K) :
    dot dofs (fun b => if p then r b else 0) z = if p then dot dofs r z else 0 := by
  split
  · rfl
  · exact dot_zero ..

theorem dot_allDofs (cells : List Cell) (dofs : Nat → List LDof) (r z : GDof → K) :
    dot (allDofs cells dofs) r z =
      (cells.map fun c => dot (dofs c.id) (fun b => r (c.id, b)) (fun b => z (c.id, b))).sum := by
  unfold dot allDofs
  rw [List.map_flatMap, sum_flatMap']
  congr 1
  refine List.map_congr_left fun c _ => ?_
  rw [List.map_map]
  rfl

/-- A row that lives in the columns of one cell only. -/
theorem dot_allDofs_only (cells : List Cell) (hn : (ids cells).Nodup) (dofs : Nat → List LDof) (c : Nat)
    (hc : c ∈ ids cells) (r : LDof → K) (z : GDof → K) :
    dot (allDofs cells dofs) (fun h => if c = h.1 then r h.2 else 0) z = dot (dofs c) r (fun b => z (c, b)) := by
  rw [dot_allDofs]
  obtain ⟨d, hd, rfl⟩ := List.mem_map.1 hc
  have := sum_only cells hn d hd (fun c' => dot (dofs c'.id) r fun b => z (c'.id, b))
  rw [← this]
  congr 1
  refine List.map_congr_left fun c' _ => ?_
  dsimp only
  by_cases h : d.id = c'.id
  · simp [h]
  · simp [h, Ne.symm h, dot_zero]

/-! ### Sequences of calls -/

theorem collect_total {α ι κ : Type} [DecidableEq ι] [DecidableEq κ] (f : α → Option (Calls ι K)) (j : α → Calls (ι × κ) K)
    (dofs : List κ) (z : κ → K) (es : List α)
    (h : ∀ e ∈ es, ∃ l, f e = some l ∧ ∀ g, total l g = dot dofs (fun b => total (j e) (g, b)) z) :
    ∃ l, collect f es = some l ∧ ∀ g, total l g = dot dofs (fun b => total (es.flatMap j) (g, b)) z := by
  induction es with
  | nil => exact ⟨[], rfl, fun g => by simp [total_nil, dot_zero]⟩
  | cons e es ih =>
    obtain ⟨l, hl, ht⟩ := h e (by simp)
    obtain ⟨ls, hls, hts⟩ := ih fun e' he' => h e' (by simp [he'])
    refine ⟨l ++ ls, by simp [collect, hl, hls], fun g => ?_⟩
    rw [total_append, ht, hts, ← dot_add]
    simp only [List.flatMap_cons, total_append]

theorem assemble_mem (E : Engine) (ap : Bool) (cells : List Cell) (hg : ProperGrid ap cells) (e : Event)
    (he : e ∈ assemble E ap cells) :
    (e.kind ≠ .preAssembly → e.kind ≠ .postAssembly → e.cell ∈ ids cells) ∧
    (e.kind = .assembleUVSkeleton → e.outside ∈ ids cells) := by
  unfold assemble at he
  simp only [List.mem_append, List.mem_singleton, List.mem_flatMap] at he
  rcases he with (rfl | ⟨c, hc, he⟩) | rfl
  · simp
  · refine ⟨fun _ _ => ?_, fun hk => ?_⟩
    · rw [visitCell_cell E ap c e he]
      exact List.mem_map_of_mem hc
    · have h1 := visitCell_isect E ap c e he (Or.inr (Or.inl hk))
      obtain ⟨i, hi, idx, h2⟩ := loopIsects_mem E ap _ _ _ _ h1
      obtain ⟨h3, h4⟩ := (visitIsect_type E ap _ _ _ _ h2).1 (Or.inr (Or.inl hk))
      rw [← h3]
      exact hg.outside_mem c hc i hi h4
  · simp

theorem total_own (c : Nat) (l : Calls LDof K) (k : Nat) (a : LDof) :
    total (l.map fun q => ((c, q.1), q.2)) (k, a) = if c = k then total l a else 0 := by
  by_cases h : c = k
  · subst h
    rw [if_pos rfl]
    exact total_map_inj (fun i => (c, i)) (fun i j h => (Prod.mk.injEq .. ▸ h).2) l a
  · rw [if_neg h]
    exact total_map_ne (fun i => (c, i)) l (k, a) fun i e => h (congrArg Prod.fst e)

theorem total_sides (c o : Nat) (l : Calls (Side × LDof) K) (k : Nat) (a : LDof) :
    total (l.map fun q => ((match q.1.1 with | .s => c | .n => o, q.1.2), q.2)) (k, a) =
      (if c = k then total l (.s, a) else 0) + (if o = k then total l (.n, a) else 0) := by
  induction l with
  | nil => simp [total_nil]
  | cons q l ih =>
    rw [List.map_cons, total_cons, ih]
    simp only [total_cons]
    obtain ⟨⟨s, a'⟩, v⟩ := q
    cases s <;> simp only [Prod.mk.injEq, reduceCtorEq, true_and, false_and, if_false, zero_add] <;>
      rcases Classical.propComplete (c = k) with h1 | h1 <;> rcases Classical.propComplete (o = k) with h2 | h2 <;>
      rcases Classical.propComplete (a' = a) with h3 | h3 <;>
      simp only [h1, h2, h3, if_true, if_false, and_true, true_and, and_false, false_and, zero_add, add_zero] <;>
      ring

theorem dot_block (cells : List Cell) (hn : (ids cells).Nodup) (dofs : Nat → List LDof) (c : Nat)
    (hc : c ∈ ids cells) (p : Prop) [Decidable p] (r : LDof → K) (z : GDof → K) :
    dot (allDofs cells dofs) (fun h => if p ∧ c = h.1 then r h.2 else 0) z =
      if p then dot (dofs c) r (fun b => z (c, b)) else 0 := by
  by_cases h : p
  · simp only [h, true_and, if_true]
    exact dot_allDofs_only cells hn dofs c hc r z
  · simp only [h, false_and, if_false]
    exact dot_zero ..

/-- One call of the assembler. -/
theorem applyEvent_total (cells : List Cell) (hn : (ids cells).Nodup) (lop : Lop K) (dofs : Nat → List LDof)
    (hpost : lop.doAlphaVolumePostSkeleton = false) (hA : ApplyIsJacobian lop dofs) (x z : GDof → K) (e : Event)
    (hc : e.kind ≠ .preAssembly → e.kind ≠ .postAssembly → e.cell ∈ ids cells)
    (ho : e.kind = .assembleUVSkeleton → e.outside ∈ ids cells) :
    ∃ l, applyEvent lop x z e = some l ∧
      ∀ g, total l g = dot (allDofs cells dofs) (fun h => total (jacobianEvent lop x e) (g, h)) z := by
  have hnil : ∀ g : GDof, total ([] : Calls GDof K) g =
      dot (allDofs cells dofs) (fun h => total ([] : Calls (GDof × GDof) K) (g, h)) z := by
    intro g
    simp [total_nil, dot_zero]
  obtain ⟨kind, c, f, index, o⟩ := e
  cases kind <;> try exact ⟨[], rfl, hnil⟩
  · -- volume
    have hc' := hc (by simp) (by simp)
    obtain ⟨l, hl, ht⟩ := hA.volume c (fun a => x (c, a)) (fun a => z (c, a))
    by_cases hv : lop.doAlphaVolume = true
    · refine ⟨l.map fun q => ((c, q.1), q.2), by simp [applyEvent, hv, hl], ?_⟩
      rintro ⟨k, a⟩
      simp only [jacobianEvent, hv, if_true]
      rw [total_own, ht]
      rw [← dot_block cells hn dofs c hc' (c = k)]
      refine dot_congr _ _ ?_
      rintro ⟨k', b⟩ _
      rw [total_same]
    · refine ⟨[], by simp [applyEvent, hv], ?_⟩
      simp only [jacobianEvent, hv]
      exact hnil
  · -- skeleton
    have hc' := hc (by simp) (by simp)
    have ho' := ho rfl
    obtain ⟨l, hl, ht, ht'⟩ := hA.skeleton ⟨c, f, index, o⟩ c (fun a => x (c, a)) (fun a => z (c, a)) o
      (fun a => x (o, a)) (fun a => z (o, a))
    by_cases hv : lop.doAlphaSkeleton = true
    · refine ⟨l.map fun q => ((match q.1.1 with | .s => c | .n => o, q.1.2), q.2), ?_, ?_⟩
      · simp only [applyEvent, hv, if_true]
        rw [hl]
        rfl
      · rintro ⟨k, a⟩
        simp only [jacobianEvent, hv, if_true]
        rw [total_sides, ht, ht']
        rw [show (if c = k then dot (dofs c) (fun b => total (lop.jacobianSkeleton ⟨c, f, index, o⟩ c (fun a => x (c, a)) o
            (fun a => x (o, a))) (.ss, a, b)) (fun a => z (c, a)) + dot (dofs o) (fun b => total (lop.jacobianSkeleton
            ⟨c, f, index, o⟩ c (fun a => x (c, a)) o (fun a => x (o, a))) (.sn, a, b)) (fun a => z (o, a)) else 0) =
            (if c = k then dot (dofs c) (fun b => total (lop.jacobianSkeleton ⟨c, f, index, o⟩ c (fun a => x (c, a)) o
            (fun a => x (o, a))) (.ss, a, b)) (fun a => z (c, a)) else 0) + (if c = k then dot (dofs o) (fun b =>
            total (lop.jacobianSkeleton ⟨c, f, index, o⟩ c (fun a => x (c, a)) o (fun a => x (o, a))) (.sn, a, b))
            (fun a => z (o, a)) else 0) by split <;> simp]
        rw [show (if o = k then dot (dofs c) (fun b => total (lop.jacobianSkeleton ⟨c, f, index, o⟩ c (fun a => x (c, a)) o
            (fun a => x (o, a))) (.ns, a, b)) (fun a => z (c, a)) + dot (dofs o) (fun b => total (lop.jacobianSkeleton
            ⟨c, f, index, o⟩ c (fun a => x (c, a)) o (fun a => x (o, a))) (.nn, a, b)) (fun a => z (o, a)) else 0) =
            (if o = k then dot (dofs c) (fun b => total (lop.jacobianSkeleton ⟨c, f, index, o⟩ c (fun a => x (c, a)) o
            (fun a => x (o, a))) (.ns, a, b)) (fun a => z (c, a)) else 0) + (if o = k then dot (dofs o) (fun b =>
            total (lop.jacobianSkeleton ⟨c, f, index, o⟩ c (fun a => x (c, a)) o (fun a => x (o, a))) (.nn, a, b))
            (fun a => z (o, a)) else 0) by split <;> simp]
        rw [← dot_block cells hn dofs c hc' (c = k), ← dot_block cells hn dofs o ho' (c = k),
          ← dot_block cells hn dofs c hc' (o = k), ← dot_block cells hn dofs o ho' (o = k), ← add_assoc,
          ← dot_add, ← dot_add, ← dot_add]
        refine dot_congr _ _ ?_
        rintro ⟨k', b⟩ _
        rw [total_blockIndex]
    · refine ⟨[], by simp [applyEvent, hv], ?_⟩
      simp only [jacobianEvent, hv]
      exact hnil
  · -- boundary
    have hc' := hc (by simp) (by simp)
    obtain ⟨l, hl, ht⟩ := hA.boundary ⟨c, f, index, o⟩ c (fun a => x (c, a)) (fun a => z (c, a))
    by_cases hv : lop.doAlphaBoundary = true
    · refine ⟨l.map fun q => ((c, q.1), q.2), by simp [applyEvent, hv, hl], ?_⟩
      rintro ⟨k, a⟩
      simp only [jacobianEvent, hv, if_true]
      rw [total_own, ht]
      rw [← dot_block cells hn dofs c hc' (c = k)]
      refine dot_congr _ _ ?_
      rintro ⟨k', b⟩ _
      rw [total_same]
    · refine ⟨[], by simp [applyEvent, hv], ?_⟩
      simp only [jacobianEvent, hv]
      exact hnil
  · -- post skeleton
    refine ⟨[], rfl, ?_⟩
    simp only [jacobianEvent, hpost]
    exact hnil

theorem applyCalls_total (ap : Bool) (cells : List Cell) (hg : ProperGrid ap cells) (lop : Lop K) (dofs : Nat → List LDof)
    (hpost : lop.doAlphaVolumePostSkeleton = false) (hA : ApplyIsJacobian lop dofs) (x z : GDof → K) :
    ∃ l, applyCalls ap cells lop x z = some l ∧
      ∀ g, total l g = dot (allDofs cells dofs) (matrix ap cells lop x g) z := by
  unfold applyCalls matrix jacobianCalls
  refine collect_total _ _ _ _ _ fun e he => ?_
  obtain ⟨h1, h2⟩ := assemble_mem _ ap cells hg e he
  exact applyEvent_total cells hg.nodup lop dofs hpost hA x z e h1 h2

/-! ### The wrappers -/

omit [Field K] in
theorem linPoint_fits (lop : Lop K) (x : LDof → K) : lop.isLinear = (linPoint lop x).isNone := by
  unfold linPoint
  cases lop.isLinear <;> rfl

theorem total_onlySide (s s' : Side) (calls : Calls (Side × LDof) K) (a : LDof) :
    total (onlySide s calls) (s', a) = if s = s' then total calls (s', a) else 0 := by
  induction calls with
  | nil => simp [onlySide, total_nil]
  | cons c cs ih =>
    unfold onlySide at ih ⊢
    obtain ⟨⟨t, a'⟩, v⟩ := c
    rw [List.filter_cons, total_cons]
    by_cases h : t = s
    · subst h
      rw [if_pos (by simp), total_cons, ih]
      by_cases h' : t = s'
      · simp [h']
      · rw [if_neg (by simp [h']), if_neg h']; simp [h']
    · rw [if_neg (by simp [h]), ih]
      by_cases h' : s = s'
      · subst h'
        have : ((t, a') : Side × LDof) ≠ (s, a) := fun e => h (congrArg Prod.fst e)
        simp [this]
      · simp [h']

theorem apply_diagonal (lop : Lop K) (dofs : Nat → List LDof) (hA : ApplyIsJacobian lop dofs) :
    ApplyIsJacobian (blockDiagonal lop) dofs where
  volume c x z := by
    obtain ⟨l, hl, ht⟩ := hA.volume c x z
    refine ⟨l, ?_, ht⟩
    change callApplyVolume lop c (linPoint lop x) z = some l
    unfold callApplyVolume
    rw [if_pos (linPoint_fits lop x), hl]
  skeleton ig c xs zs o xn zn := by
    obtain ⟨l, hl, ht, _⟩ := hA.skeleton ig c xs zs o xn fun _ => 0
    refine ⟨onlySide .s l, ?_, fun a => ?_, fun a => ?_⟩
    · change (callApplySkeleton lop ig c (linPoint lop xs) zs o (linPoint lop xn) fun _ => 0).map (onlySide .s) = _
      unfold callApplySkeleton
      rw [if_pos (linPoint_fits lop xs), hl]
      rfl
    · rw [total_onlySide, if_pos rfl, ht, dot_zero_right, add_zero]
      simp only [blockDiagonal, total_onlyBlock]
      simp [dot_zero]
    · rw [total_onlySide]
      simp only [blockDiagonal, total_onlyBlock]
      simp [dot_zero]
  boundary ig c x z := by
    obtain ⟨l, hl, ht⟩ := hA.boundary ig c x z
    refine ⟨l, ?_, ht⟩
    change callApplyBoundary lop ig c (linPoint lop x) z = some l
    unfold callApplyBoundary
    rw [if_pos (linPoint_fits lop x), hl]

/-- The operator whose Jacobian belongs to the matrix-free application of the off-diagonal wrapper. -/
def offS (lop : Lop K) : Lop K :=
  { blockOffDiagonal lop with
    jacobianSkeleton := fun ig lfsS xS lfsN xN => onlyBlock .sn (lop.jacobianSkeleton ig lfsS xS lfsN xN) }

theorem applyCalls_offS (ap : Bool) (cells : List Cell) (lop : Lop K) (x z : GDof → K) :
    applyCalls ap cells (blockOffDiagonal lop) x z = applyCalls ap cells (offS lop) x z := rfl

theorem apply_offS (lop : Lop K) (dofs : Nat → List LDof) (hA : ApplyIsJacobian lop dofs) :
    ApplyIsJacobian (offS lop) dofs where
  volume c x z := ⟨[], rfl, fun a => by simp [offS, blockOffDiagonal, total_nil, dot_zero]⟩
  skeleton ig c xs zs o xn zn := by
    obtain ⟨l, hl, ht, _⟩ := hA.skeleton ig c xs (fun _ => 0) o xn zn
    refine ⟨onlySide .s l, ?_, fun a => ?_, fun a => ?_⟩
    · change (callApplySkeleton lop ig c (linPoint lop xs) (fun _ => 0) o (linPoint lop xn) zn).map (onlySide .s) = _
      unfold callApplySkeleton
      rw [if_pos (linPoint_fits lop xs), hl]
      rfl
    · rw [total_onlySide, if_pos rfl, ht, dot_zero_right, zero_add]
      simp only [offS, total_onlyBlock]
      simp [dot_zero]
    · rw [total_onlySide]
      simp only [offS, total_onlyBlock]
      simp [dot_zero]
  boundary ig c x z := ⟨[], rfl, fun a => by simp [offS, blockOffDiagonal, total_nil, dot_zero]⟩

theorem faceBlock_offS (lop : Lop K) (x : GDof → K) (c f index o : Nat) (blk : Block) (a b : LDof) :
    faceBlock (offS lop) x c f index o blk a b =
      if Block.sn = blk then faceBlock lop x c f index o blk a b else 0 := by
  unfold faceBlock offS
  exact total_onlyBlock ..

theorem offS_skeleton (lop : Lop K) : (offS lop).doAlphaSkeleton = lop.doAlphaSkeleton := rfl
theorem offS_twoSided (lop : Lop K) : (offS lop).twoSided = true := rfl

theorem entry_offS (ap : Bool) (cells : List Cell) (hg : ProperGrid ap cells) (hs : SharedFaces ap cells)
    (lop : Lop K) (x : GDof → K) (hidx : IndexFree ap cells lop x)
    (h : (lop.twoSided = false ∧ SideSymmetric ap cells lop x) ∨ (lop.twoSided = true ∧ InsideOnly ap cells lop x))
    (c : Cell) (hc : c ∈ cells) (k' : Nat) (a b : LDof) :
    matrix ap cells (offS lop) x (c.id, a) (k', b) =
      if c.id = k' then 0 else matrix ap cells lop x (c.id, a) (k', b) := by
  have hidx' : IndexFree ap cells (offS lop) x := by
    intro c f o hf index blk a b
    rw [faceBlock_offS, faceBlock_offS, hidx c f o hf]
  rw [matrix_entry ap cells hg hs _ x hidx' c hc, matrix_entry ap cells hg hs _ x hidx c hc]
  have hown : ownTerms ap (offS lop) x c a b = 0 := by
    unfold ownTerms
    simp [offS, blockOffDiagonal]
  have hpair : ∀ i ∈ c.isects.filter (IsInterior ap), pairPart (offS lop) x c.id i.face i.outside k' a b =
      if c.id = k' then 0 else pairPart lop x c.id i.face i.outside k' a b := by
    intro i hi
    have hi' := List.mem_filter.1 hi
    have hint : IsInterior ap i := by simpa using hi'.2
    have hne : i.outside ≠ c.id := hg.not_self c hc i hi'.1 hint
    have hf : IsFace ap cells c.id i.face i.outside := ⟨c, hc, rfl, i, hi'.1, hint, rfl, rfl⟩
    rw [pairPart_value hf (isFace_back hs hc hi) hne h]
    unfold pairPart
    simp only [faceBlock_offS, offS_skeleton, offS_twoSided]
    by_cases hk : c.id = k'
    · have : i.outside ≠ k' := hk ▸ hne
      simp [hk, this]
    · simp [hk]
  rw [hown, List.map_congr_left hpair]
  by_cases hk : c.id = k' <;> simp [hk]

end Verif.BlockOp
