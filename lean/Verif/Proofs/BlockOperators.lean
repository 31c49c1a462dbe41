import Verif.Spec.BlockOperators
import Verif.Proofs.CCFV
namespace Verif.BlockOp
open GridAssembler LocalOp LocalOp.Spec Spec

variable {K : Type} [Field K]

/-! ### The traversal -/

theorem loopIsects_eq (E : Engine) (hE : ∀ c f i, E.skipIntersection c f i = false) (ap : Bool) (c index : Nat)
    (is : List Isect) :
    loopIsects E ap c index is = (is.zipIdx index).flatMap fun p => visitIsect E ap c p.2 p.1 := by
  induction is generalizing index with
  | nil => rfl
  | cons i is ih => simp [loopIsects, hE, ih]

/-- The sum of the values of `g` over the calls for an intersection that is visited. -/
theorem visitIsect_calls {ι : Type} (E : Engine) (hv : E.vSkeleton = false) (hvb : E.vBoundary = false)
    (hi : E.interiorOnly = false) (ap : Bool) (c index : Nat) (i : Isect) (f : Event → Calls ι K)
    (hf : ∀ e : Event, e.kind ≠ .assembleUVVolume → e.kind ≠ .assembleUVSkeleton → e.kind ≠ .assembleUVBoundary →
      e.kind ≠ .assembleUVVolumePostSkeleton → f e = []) :
    (visitIsect E ap c index i).flatMap f =
      if IsInterior ap i then
        if E.uvSkeleton = true ∧ (c > i.outside ∨ E.twoSided = true) then
          f ⟨.assembleUVSkeleton, c, i.face, index, i.outside⟩ else []
      else if IsBoundary i then
        if E.uvBoundary = true then f ⟨.assembleUVBoundary, c, i.face, index, 0⟩ else []
      else [] := by
  unfold visitIsect classify visitFace IsInterior IsBoundary
  obtain ⟨face, nb, bd, out, oc, oi⟩ := i
  have h1 := hf ⟨.onBindLFSVOutside, c, face, index, out⟩ (by simp) (by simp) (by simp) (by simp)
  have h2 := hf ⟨.assembleVSkeleton, c, face, index, out⟩ (by simp) (by simp) (by simp) (by simp)
  have h3 := hf ⟨.onBindLFSUVOutside, c, face, index, out⟩ (by simp) (by simp) (by simp) (by simp)
  have h4 := hf ⟨.loadOutside, c, face, index, out⟩ (by simp) (by simp) (by simp) (by simp)
  have h5 := hf ⟨.onUnbindLFSUVOutside, c, face, index, out⟩ (by simp) (by simp) (by simp) (by simp)
  have h6 := hf ⟨.onUnbindLFSVOutside, c, face, index, out⟩ (by simp) (by simp) (by simp) (by simp)
  have h7 := hf ⟨.assembleVBoundary, c, face, index, 0⟩ (by simp) (by simp) (by simp) (by simp)
  have h8 := hf ⟨.assembleVProcessor, c, face, index, 0⟩ (by simp) (by simp) (by simp) (by simp)
  have h9 := hf ⟨.assembleUVProcessor, c, face, index, 0⟩ (by simp) (by simp) (by simp) (by simp)
  cases nb <;> cases bd <;> cases ap <;> cases oc <;> cases hs : E.uvSkeleton <;> cases hb : E.uvBoundary <;>
    cases ht : E.twoSided <;> by_cases hlt : out < c <;>
    simp [hv, hvb, hi, hs, hb, ht, hlt, h1, h2, h3, h4, h5, h6, h7, h8, h9]

theorem jacobianEvent_nil (lop : Lop K) (x : GDof → K) (e : Event) (h1 : e.kind ≠ .assembleUVVolume)
    (h2 : e.kind ≠ .assembleUVSkeleton) (h3 : e.kind ≠ .assembleUVBoundary)
    (h4 : e.kind ≠ .assembleUVVolumePostSkeleton) : jacobianEvent lop x e = [] := by
  unfold jacobianEvent
  cases h : e.kind <;> simp_all

/-- The calls for one intersection. -/
def isectJac (ap : Bool) (lop : Lop K) (x : GDof → K) (c : Nat) (i : Isect) (index : Nat) : Calls (GDof × GDof) K :=
  if IsInterior ap i then
    if lop.doAlphaSkeleton = true ∧ (c > i.outside ∨ lop.twoSided = true) then
      (lop.jacobianSkeleton ⟨c, i.face, index, i.outside⟩ c (fun a => x (c, a)) i.outside
        (fun a => x (i.outside, a))).map fun q => (blockIndex c i.outside q.1, q.2)
    else []
  else if IsBoundary i then
    if lop.doAlphaBoundary = true then
      (lop.jacobianBoundary ⟨c, i.face, index, 0⟩ c fun a => x (c, a)).map fun q => (((c, q.1.1), (c, q.1.2)), q.2)
    else []
  else []

theorem isectJac_eq (ap : Bool) (lop : Lop K) (x : GDof → K) (c : Nat) (i : Isect) (index : Nat) :
    (visitIsect (engineOf lop) ap c index i).flatMap (jacobianEvent lop x) = isectJac ap lop x c i index := by
  rw [visitIsect_calls _ rfl rfl rfl ap c index i _ (jacobianEvent_nil lop x)]
  unfold isectJac
  by_cases h : IsInterior ap i
  · simp only [h, if_true]
    by_cases h' : lop.doAlphaSkeleton = true ∧ (c > i.outside ∨ lop.twoSided = true)
    · have h'' : (engineOf lop).uvSkeleton = true ∧ (c > i.outside ∨ (engineOf lop).twoSided = true) := h'
      rw [if_pos h', if_pos h'']
      simp [jacobianEvent, h'.1]
    · have h'' : ¬ ((engineOf lop).uvSkeleton = true ∧ (c > i.outside ∨ (engineOf lop).twoSided = true)) := h'
      rw [if_neg h', if_neg h'']
  · simp only [h, if_false]
    by_cases hb : IsBoundary i
    · simp only [hb, if_true]
      by_cases h' : lop.doAlphaBoundary = true
      · have h'' : (engineOf lop).uvBoundary = true := h'
        simp [h', h'', jacobianEvent]
      · have h'' : ¬ (engineOf lop).uvBoundary = true := h'
        simp [h', h'']
    · simp [hb]

/-- The calls for the terms that belong to the cell itself. -/
def volJac (lop : Lop K) (x : GDof → K) (c : Nat) : Calls (GDof × GDof) K :=
  (if lop.doAlphaVolume = true then
    (lop.jacobianVolume c fun a => x (c, a)).map fun q => (((c, q.1.1), (c, q.1.2)), q.2) else []) ++
  (if lop.doAlphaVolumePostSkeleton = true then
    (lop.jacobianVolumePostSkeleton c fun a => x (c, a)).map fun q => (((c, q.1.1), (c, q.1.2)), q.2) else [])

theorem total_jacobianCalls (ap : Bool) (cells : List Cell) (lop : Lop K) (x : GDof → K) (k : GDof × GDof) :
    total (jacobianCalls ap cells lop x) k =
      (cells.map fun c => total (volJac lop x c.id) k +
        (c.isects.zipIdx.map fun p => total (isectJac ap lop x c.id p.1 p.2) k).sum).sum := by
  unfold jacobianCalls assemble
  rw [List.flatMap_append, List.flatMap_append, total_append, total_append]
  have h0 : ∀ e : Event, e.kind = .preAssembly ∨ e.kind = .postAssembly →
      total ([e].flatMap (jacobianEvent lop x)) k = 0 := by
    rintro e (h | h) <;> simp [jacobianEvent, h, total_nil]
  rw [h0 _ (.inl rfl), h0 _ (.inr rfl), zero_add, add_zero, List.flatMap_assoc, total_flatMap]
  congr 1
  refine List.map_congr_left fun c _ => ?_
  unfold visitCell
  rw [if_neg (by simp [engineOf])]
  simp only [List.flatMap_append, total_append]
  have hloop : total ((loopIsects (engineOf lop) ap c.id 0 c.isects).flatMap (jacobianEvent lop x)) k =
      (c.isects.zipIdx.map fun p => total (isectJac ap lop x c.id p.1 p.2) k).sum := by
    rw [loopIsects_eq _ (fun _ _ _ => rfl), List.flatMap_assoc, total_flatMap]
    congr 1
    exact List.map_congr_left fun p _ => by rw [isectJac_eq]
  have hcond : total ((if (engineOf lop).uvSkeleton || (engineOf lop).vSkeleton || (engineOf lop).uvBoundary ||
      (engineOf lop).vBoundary then loopIsects (engineOf lop) ap c.id 0 c.isects else []).flatMap (jacobianEvent lop x)) k =
      (c.isects.zipIdx.map fun p => total (isectJac ap lop x c.id p.1 p.2) k).sum := by
    rw [← hloop]
    split
    · rfl
    · rename_i h
      rw [hloop]
      have h' : lop.doAlphaSkeleton = false ∧ lop.doAlphaBoundary = false := by simpa [engineOf] using h
      have : ∀ p ∈ c.isects.zipIdx, total (isectJac ap lop x c.id p.1 p.2) k = (0 : K) := by
        intro p _
        unfold isectJac
        simp [h'.1, h'.2, total_nil]
      rw [List.map_congr_left this]
      simp [total_nil]
  rw [hcond]
  unfold volJac
  rw [total_append]
  cases hp : lop.doAlphaVolumePostSkeleton <;> cases hv : lop.doAlphaVolume <;>
    simp [engineOf, jacobianEvent, hp, hv, total_nil] <;> ring

/-- What a call to one of the four matrices adds to an entry. -/
theorem total_blockIndex (c o : Nat) (l : Calls (Block × LDof × LDof) K) (k k' : Nat) (a b : LDof) :
    total (l.map fun q => (blockIndex c o q.1, q.2)) ((k, a), (k', b)) =
      (if c = k ∧ c = k' then total l (.ss, a, b) else 0) + (if c = k ∧ o = k' then total l (.sn, a, b) else 0) +
      (if o = k ∧ c = k' then total l (.ns, a, b) else 0) + (if o = k ∧ o = k' then total l (.nn, a, b) else 0) := by
  induction l with
  | nil => simp [total_nil]
  | cons q l ih =>
    rw [List.map_cons, total_cons, ih]
    simp only [total_cons]
    obtain ⟨⟨blk, a', b'⟩, v⟩ := q
    cases blk <;> simp only [blockIndex, Prod.mk.injEq, reduceCtorEq, true_and, false_and, if_false, zero_add] <;>
      rcases Classical.propComplete (c = k) with h1 | h1 <;> rcases Classical.propComplete (c = k') with h2 | h2 <;>
      rcases Classical.propComplete (o = k) with h3 | h3 <;> rcases Classical.propComplete (o = k') with h4 | h4 <;>
      rcases Classical.propComplete (a' = a) with h5 | h5 <;> rcases Classical.propComplete (b' = b) with h6 | h6 <;>
      simp only [h1, h2, h3, h4, h5, h6, if_true, if_false, and_true, true_and, and_false, false_and, zero_add, add_zero] <;>
      ring

theorem total_same (c : Nat) (l : Calls (LDof × LDof) K) (k k' : Nat) (a b : LDof) :
    total (l.map fun q => (((c, q.1.1), (c, q.1.2)), q.2)) ((k, a), (k', b)) =
      if c = k ∧ c = k' then total l (a, b) else 0 := by
  induction l with
  | nil => simp [total_nil]
  | cons q l ih =>
    rw [List.map_cons, total_cons, ih]
    simp only [total_cons]
    obtain ⟨⟨a', b'⟩, v⟩ := q
    simp only [Prod.mk.injEq]
    rcases Classical.propComplete (c = k) with h1 | h1 <;> rcases Classical.propComplete (c = k') with h2 | h2 <;>
      rcases Classical.propComplete (a' = a) with h5 | h5 <;> rcases Classical.propComplete (b' = b) with h6 | h6 <;>
      simp [h1, h2, h5, h6]

/-! ### Entries of the assembled matrix -/

/-- The volume and boundary terms of a cell. -/
def ownTerms (ap : Bool) (lop : Lop K) (x : GDof → K) (c : Cell) (a b : LDof) : K :=
  (if lop.doAlphaVolume = true then total (lop.jacobianVolume c.id fun a => x (c.id, a)) (a, b) else 0) +
  (if lop.doAlphaVolumePostSkeleton = true then
    total (lop.jacobianVolumePostSkeleton c.id fun a => x (c.id, a)) (a, b) else 0) +
  (c.isects.zipIdx.map fun p =>
    if ¬ IsInterior ap p.1 ∧ IsBoundary p.1 ∧ lop.doAlphaBoundary = true then
      total (lop.jacobianBoundary ⟨c.id, p.1.face, p.2, 0⟩ c.id fun a => x (c.id, a)) (a, b) else 0).sum

/-- What a face between `c` and `o`, visited from `c`, adds to the entry `((k,a),(k',b))`. -/
def facePart (lop : Lop K) (x : GDof → K) (c f o k k' : Nat) (a b : LDof) : K :=
  if lop.doAlphaSkeleton = true ∧ (c > o ∨ lop.twoSided = true) then
    (if c = k ∧ c = k' then faceBlock lop x c f 0 o .ss a b else 0) +
    (if c = k ∧ o = k' then faceBlock lop x c f 0 o .sn a b else 0) +
    (if o = k ∧ c = k' then faceBlock lop x c f 0 o .ns a b else 0) +
    (if o = k ∧ o = k' then faceBlock lop x c f 0 o .nn a b else 0)
  else 0

theorem sum_zipIdx {α : Type} (l : List α) (n : Nat) (v : α → K) :
    ((l.zipIdx n).map fun p => v p.1).sum = (l.map v).sum := by
  induction l generalizing n with
  | nil => rfl
  | cons a l ih => simp [ih]

theorem mem_zipIdx_fst {α : Type} (l : List α) (n : Nat) (p : α × Nat) (h : p ∈ l.zipIdx n) : p.1 ∈ l := by
  induction l generalizing n with
  | nil => simp at h
  | cons a l ih =>
    simp only [List.zipIdx_cons, List.mem_cons] at h
    rcases h with rfl | h
    · simp
    · exact List.mem_cons_of_mem _ (ih _ h)

theorem matrix_sum (ap : Bool) (cells : List Cell) (lop : Lop K) (x : GDof → K) (hidx : IndexFree ap cells lop x)
    (k k' : Nat) (a b : LDof) :
    matrix ap cells lop x (k, a) (k', b) =
      (cells.map fun c => (if c.id = k then (if k = k' then ownTerms ap lop x c a b else 0) else 0) +
        ((c.isects.filter (IsInterior ap)).map fun i => facePart lop x c.id i.face i.outside k k' a b).sum).sum := by
  unfold matrix
  rw [total_jacobianCalls]
  congr 1
  refine List.map_congr_left fun c hc => ?_
  rw [← sum_ite_filter c.isects (IsInterior ap), ← sum_zipIdx c.isects 0]
  have hisect : ∀ p ∈ c.isects.zipIdx, total (isectJac ap lop x c.id p.1 p.2) ((k, a), (k', b)) =
      (if c.id = k ∧ c.id = k' then
        (if ¬ IsInterior ap p.1 ∧ IsBoundary p.1 ∧ lop.doAlphaBoundary = true then
          total (lop.jacobianBoundary ⟨c.id, p.1.face, p.2, 0⟩ c.id fun a => x (c.id, a)) (a, b) else 0) else 0) +
      (if IsInterior ap p.1 then facePart lop x c.id p.1.face p.1.outside k k' a b else 0) := by
    intro p hp
    unfold isectJac
    by_cases h : IsInterior ap p.1
    · have hf : IsFace ap cells c.id p.1.face p.1.outside :=
        ⟨c, hc, rfl, p.1, mem_zipIdx_fst _ _ _ hp, h, rfl, rfl⟩
      simp only [h, if_true, not_true_eq_false, false_and, if_false, ite_self, zero_add]
      unfold facePart
      by_cases h' : lop.doAlphaSkeleton = true ∧ (c.id > p.1.outside ∨ lop.twoSided = true)
      · rw [if_pos h', if_pos h', total_blockIndex]
        have e := fun blk => hidx _ _ _ hf p.2 blk a b
        unfold faceBlock at e ⊢
        simp only [e]
      · rw [if_neg h', if_neg h', total_nil]
    · simp only [h, if_false, not_false_eq_true, true_and, add_zero]
      by_cases h1 : IsBoundary p.1 <;> by_cases h2 : lop.doAlphaBoundary = true <;>
        simp [h1, h2, total_nil, total_same]
  rw [List.map_congr_left hisect, List.sum_map_add]
  rw [← add_assoc]
  congr 1
  unfold volJac ownTerms
  rw [total_append]
  by_cases h : c.id = k
  · subst h
    by_cases h' : c.id = k'
    · subst h'
      simp only [and_self, if_true]
      congr 1
      congr 1
      · split <;> simp [total_nil, total_same]
      · split <;> simp [total_nil, total_same]
    · simp only [h', and_false, if_false, if_true, List.map_const', List.sum_replicate, smul_zero, add_zero]
      rw [show total (if lop.doAlphaVolume = true then _ else []) ((c.id, a), (k', b)) = (0 : K) by
        split <;> simp [total_nil, total_same, h']]
      rw [show total (if lop.doAlphaVolumePostSkeleton = true then _ else []) ((c.id, a), (k', b)) = (0 : K) by
        split <;> simp [total_nil, total_same, h']]
      ring
  · simp only [h, false_and, if_false, List.map_const', List.sum_replicate, smul_zero, add_zero]
    rw [show total (if lop.doAlphaVolume = true then _ else []) ((k, a), (k', b)) = (0 : K) by
      split <;> simp [total_nil, total_same, h]]
    rw [show total (if lop.doAlphaVolumePostSkeleton = true then _ else []) ((k, a), (k', b)) = (0 : K) by
      split <;> simp [total_nil, total_same, h]]
    ring

/-- What the face contributes to the row `(c,a)`, visited from either side as the operator demands. -/
def pairPart (lop : Lop K) (x : GDof → K) (c f o k' : Nat) (a b : LDof) : K :=
  (if lop.doAlphaSkeleton = true ∧ (c > o ∨ lop.twoSided = true) then
    (if c = k' then faceBlock lop x c f 0 o .ss a b else 0) + (if o = k' then faceBlock lop x c f 0 o .sn a b else 0)
  else 0) +
  (if lop.doAlphaSkeleton = true ∧ (o > c ∨ lop.twoSided = true) then
    (if o = k' then faceBlock lop x o f 0 c .ns a b else 0) + (if c = k' then faceBlock lop x o f 0 c .nn a b else 0)
  else 0)

theorem matrix_entry (ap : Bool) (cells : List Cell) (hg : ProperGrid ap cells) (hs : SharedFaces ap cells)
    (lop : Lop K) (x : GDof → K) (hidx : IndexFree ap cells lop x) (c : Cell) (hc : c ∈ cells) (k' : Nat) (a b : LDof) :
    matrix ap cells lop x (c.id, a) (k', b) =
      (if c.id = k' then ownTerms ap lop x c a b else 0) +
        ((c.isects.filter (IsInterior ap)).map fun i => pairPart lop x c.id i.face i.outside k' a b).sum := by
  rw [matrix_sum ap cells lop x hidx]
  have hterm : ∀ d ∈ cells,
      (if d.id = c.id then (if c.id = k' then ownTerms ap lop x d a b else 0) else 0) +
        ((d.isects.filter (IsInterior ap)).map fun i => facePart lop x d.id i.face i.outside c.id k' a b).sum =
      (if d.id = c.id then ((if c.id = k' then ownTerms ap lop x d a b else 0) +
        ((d.isects.filter (IsInterior ap)).map fun i =>
          if lop.doAlphaSkeleton = true ∧ (d.id > i.outside ∨ lop.twoSided = true) then
            (if d.id = k' then faceBlock lop x d.id i.face 0 i.outside .ss a b else 0) +
            (if i.outside = k' then faceBlock lop x d.id i.face 0 i.outside .sn a b else 0) else 0).sum) else 0) +
      (((d.isects.filter fun i => IsInterior ap i ∧ i.outside = c.id).map fun i => (d.id, i.face)).map fun p =>
        if lop.doAlphaSkeleton = true ∧ (p.1 > c.id ∨ lop.twoSided = true) then
          (if p.1 = k' then faceBlock lop x p.1 p.2 0 c.id .ns a b else 0) +
          (if c.id = k' then faceBlock lop x p.1 p.2 0 c.id .nn a b else 0) else 0).sum := by
    intro d hd
    rw [List.map_map]
    have e1 := sum_ite_filter (K := K) d.isects (fun i => IsInterior ap i ∧ i.outside = c.id)
      ((fun p : Nat × Nat => if lop.doAlphaSkeleton = true ∧ (p.1 > c.id ∨ lop.twoSided = true) then
          (if p.1 = k' then faceBlock lop x p.1 p.2 0 c.id .ns a b else 0) +
          (if c.id = k' then faceBlock lop x p.1 p.2 0 c.id .nn a b else 0) else 0) ∘ fun i => (d.id, i.face))
    have e2 := sum_ite_filter (K := K) d.isects (IsInterior ap)
      (fun i => facePart lop x d.id i.face i.outside c.id k' a b)
    have e3 := sum_ite_filter (K := K) d.isects (IsInterior ap) (fun i =>
          if lop.doAlphaSkeleton = true ∧ (d.id > i.outside ∨ lop.twoSided = true) then
            (if d.id = k' then faceBlock lop x d.id i.face 0 i.outside .ss a b else 0) +
            (if i.outside = k' then faceBlock lop x d.id i.face 0 i.outside .sn a b else 0) else 0)
    rw [← e1, ← e2, ← e3]
    have key : (d.isects.map fun i => if IsInterior ap i then facePart lop x d.id i.face i.outside c.id k' a b else 0).sum =
        (if d.id = c.id then (d.isects.map fun i => if IsInterior ap i then
          if lop.doAlphaSkeleton = true ∧ (d.id > i.outside ∨ lop.twoSided = true) then
            (if d.id = k' then faceBlock lop x d.id i.face 0 i.outside .ss a b else 0) +
            (if i.outside = k' then faceBlock lop x d.id i.face 0 i.outside .sn a b else 0) else 0 else 0).sum else 0) +
        (d.isects.map fun i => if IsInterior ap i ∧ i.outside = c.id then
          ((fun p : Nat × Nat => if lop.doAlphaSkeleton = true ∧ (p.1 > c.id ∨ lop.twoSided = true) then
          (if p.1 = k' then faceBlock lop x p.1 p.2 0 c.id .ns a b else 0) +
          (if c.id = k' then faceBlock lop x p.1 p.2 0 c.id .nn a b else 0) else 0) ∘ fun i => (d.id, i.face)) i
          else 0).sum := by
      generalize d.isects = is
      induction is with
      | nil => simp
      | cons i is ih =>
        simp only [List.map_cons, List.sum_cons, Function.comp_def] at ih ⊢
        rw [ih]
        unfold facePart
        by_cases hint : IsInterior ap i
        · simp only [hint, if_true, true_and]
          by_cases hsk : lop.doAlphaSkeleton = true
          · simp only [hsk, true_and]
            by_cases hd' : d.id = c.id
            · simp only [hd', true_and, if_true]
              by_cases ho : i.outside = c.id
              · simp only [ho, true_and, if_true]
                split <;> ring
              · simp only [ho, false_and, if_false]
                split <;> ring
            · simp only [hd', false_and, if_false]
              by_cases ho : i.outside = c.id
              · simp only [ho, true_and, if_true]
                split <;> ring
              · simp only [ho, false_and, if_false]
                split <;> ring
          · simp [hsk]
        · simp [hint]
    rw [key]
    by_cases hd' : d.id = c.id
    · simp only [hd', if_true]; ring
    · simp only [hd', if_false]; ring
  rw [List.map_congr_left hterm, List.sum_map_add, sum_only cells hg.nodup c hc]
  rw [add_assoc]
  congr 1
  have h2 : (cells.map fun d => (((d.isects.filter fun i => IsInterior ap i ∧ i.outside = c.id).map fun i =>
        (d.id, i.face)).map fun p =>
          if lop.doAlphaSkeleton = true ∧ (p.1 > c.id ∨ lop.twoSided = true) then
          (if p.1 = k' then faceBlock lop x p.1 p.2 0 c.id .ns a b else 0) +
          (if c.id = k' then faceBlock lop x p.1 p.2 0 c.id .nn a b else 0) else 0).sum).sum
      = (((c.isects.filter (IsInterior ap)).map fun i => (i.outside, i.face)).map fun p =>
          if lop.doAlphaSkeleton = true ∧ (p.1 > c.id ∨ lop.twoSided = true) then
          (if p.1 = k' then faceBlock lop x p.1 p.2 0 c.id .ns a b else 0) +
          (if c.id = k' then faceBlock lop x p.1 p.2 0 c.id .nn a b else 0) else 0).sum := by
    rw [← ((hs c hc).map _).sum_eq, List.map_flatMap, sum_flatMap']
  rw [h2, List.map_map, ← List.sum_map_add]
  rfl

/-! ### The wrappers -/

theorem total_onlyBlock (blk blk' : Block) (calls : Calls (Block × LDof × LDof) K) (a b : LDof) :
    total (onlyBlock blk calls) (blk', a, b) = if blk = blk' then total calls (blk', a, b) else 0 := by
  induction calls with
  | nil => simp [onlyBlock, total_nil]
  | cons c cs ih =>
    unfold onlyBlock at ih ⊢
    obtain ⟨⟨bk, a', b'⟩, v⟩ := c
    rw [List.filter_cons, total_cons]
    by_cases h : bk = blk
    · subst h
      rw [if_pos (by simp), total_cons, ih]
      by_cases h' : bk = blk'
      · simp [h']
      · rw [if_neg (by simp [h']), if_neg h']; simp [h']
    · rw [if_neg (by simp [h]), ih]
      by_cases h' : blk = blk'
      · subst h'
        have : ((bk, a', b') : Block × LDof × LDof) ≠ (blk, a, b) := fun e => h (congrArg Prod.fst e)
        simp [this]
      · simp [h']

theorem faceBlock_diagonal (lop : Lop K) (x : GDof → K) (c f index o : Nat) (blk : Block) (a b : LDof) :
    faceBlock (blockDiagonal lop) x c f index o blk a b = if Block.ss = blk then faceBlock lop x c f index o blk a b else 0 := by
  unfold faceBlock blockDiagonal
  exact total_onlyBlock ..

theorem faceBlock_offDiagonal (lop : Lop K) (x : GDof → K) (c f index o : Nat) (blk : Block) (a b : LDof) :
    faceBlock (blockOffDiagonal lop) x c f index o blk a b =
      if Block.ns = blk then faceBlock lop x c f index o blk a b else 0 := by
  unfold faceBlock blockOffDiagonal
  exact total_onlyBlock ..

theorem blockDiagonal_skeleton (lop : Lop K) : (blockDiagonal lop).doAlphaSkeleton = lop.doAlphaSkeleton := rfl
theorem blockDiagonal_twoSided (lop : Lop K) : (blockDiagonal lop).twoSided = true := rfl
theorem blockOffDiagonal_skeleton (lop : Lop K) : (blockOffDiagonal lop).doAlphaSkeleton = lop.doAlphaSkeleton := rfl
theorem blockOffDiagonal_twoSided (lop : Lop K) : (blockOffDiagonal lop).twoSided = true := rfl

theorem indexFree_diagonal {ap : Bool} {cells : List Cell} {lop : Lop K} {x : GDof → K} (h : IndexFree ap cells lop x) :
    IndexFree ap cells (blockDiagonal lop) x := by
  intro c f o hf index blk a b
  rw [faceBlock_diagonal, faceBlock_diagonal, h c f o hf]

theorem indexFree_offDiagonal {ap : Bool} {cells : List Cell} {lop : Lop K} {x : GDof → K} (h : IndexFree ap cells lop x) :
    IndexFree ap cells (blockOffDiagonal lop) x := by
  intro c f o hf index blk a b
  rw [faceBlock_offDiagonal, faceBlock_offDiagonal, h c f o hf]

theorem indexFree_of_symmetric {ap : Bool} {cells : List Cell} {lop : Lop K} {x : GDof → K}
    (h : SideSymmetric ap cells lop x) : IndexFree ap cells lop x := by
  intro c f o hf index blk a b
  rw [h c f o hf index 0, ← h c f o hf 0 0]

/-- What a face adds to the row of `c`, whether the operator is called from both sides or from one. -/
theorem pairPart_value {ap : Bool} {cells : List Cell} {lop : Lop K} {x : GDof → K} {c f o : Nat}
    (hf : IsFace ap cells c f o) (hf' : IsFace ap cells o f c) (hne : o ≠ c)
    (h : (lop.twoSided = false ∧ SideSymmetric ap cells lop x) ∨ (lop.twoSided = true ∧ InsideOnly ap cells lop x))
    (k' : Nat) (a b : LDof) :
    pairPart lop x c f o k' a b = if lop.doAlphaSkeleton = true then
      (if c = k' then faceBlock lop x c f 0 o .ss a b else 0) + (if o = k' then faceBlock lop x c f 0 o .sn a b else 0)
      else 0 := by
  unfold pairPart
  by_cases hsk : lop.doAlphaSkeleton = true
  · simp only [hsk, true_and, if_true]
    rcases h with ⟨h2, hsym⟩ | ⟨h2, hin⟩
    · simp only [h2, Bool.false_eq_true, or_false]
      rcases Nat.lt_or_gt_of_ne hne with hlt | hgt
      · rw [if_pos (show c > o from hlt), if_neg (show ¬ o > c by omega), add_zero]
      · rw [if_neg (show ¬ c > o by omega), if_pos hgt, zero_add, hsym c f o hf 0 0 .ss, hsym c f o hf 0 0 .sn, add_comm]
        rfl
    · simp only [h2, or_true, if_true]
      rw [(hin o f c hf' 0 a b).1, (hin o f c hf' 0 a b).2]
      simp
  · simp [hsk]

theorem isFace_back {ap : Bool} {cells : List Cell} (hs : SharedFaces ap cells) {c : Cell} (hc : c ∈ cells) {i : Isect}
    (hi : i ∈ c.isects.filter (IsInterior ap)) : IsFace ap cells i.outside i.face c.id := by
  have h1 : (i.outside, i.face) ∈ (c.isects.filter (IsInterior ap)).map fun i => (i.outside, i.face) :=
    List.mem_map_of_mem hi
  rw [← (hs c hc).mem_iff] at h1
  simp only [List.mem_flatMap, List.mem_map, List.mem_filter, decide_eq_true_eq, Prod.mk.injEq] at h1
  obtain ⟨d, hd, j, ⟨hj, hj1, hj2⟩, h1, h2⟩ := h1
  exact ⟨d, hd, h1, j, hj, hj1, h2, hj2⟩

theorem entry_diagonal (ap : Bool) (cells : List Cell) (hg : ProperGrid ap cells) (hs : SharedFaces ap cells)
    (lop : Lop K) (x : GDof → K) (hpost : lop.doAlphaVolumePostSkeleton = false) (hidx : IndexFree ap cells lop x)
    (h : (lop.twoSided = false ∧ SideSymmetric ap cells lop x) ∨ (lop.twoSided = true ∧ InsideOnly ap cells lop x))
    (c : Cell) (hc : c ∈ cells) (k' : Nat) (a b : LDof) :
    matrix ap cells (blockDiagonal lop) x (c.id, a) (k', b) =
      if c.id = k' then matrix ap cells lop x (c.id, a) (k', b) else 0 := by
  rw [matrix_entry ap cells hg hs _ x (indexFree_diagonal hidx) c hc,
    matrix_entry ap cells hg hs _ x hidx c hc]
  have hown : ownTerms ap (blockDiagonal lop) x c a b = ownTerms ap lop x c a b := by
    unfold ownTerms
    rw [show (blockDiagonal lop).doAlphaVolumePostSkeleton = false from rfl, hpost]
    rfl
  have hpair : ∀ i ∈ c.isects.filter (IsInterior ap), pairPart (blockDiagonal lop) x c.id i.face i.outside k' a b =
      if c.id = k' then pairPart lop x c.id i.face i.outside k' a b else 0 := by
    intro i hi
    have hi' := List.mem_filter.1 hi
    have hint : IsInterior ap i := by simpa using hi'.2
    have hne : i.outside ≠ c.id := hg.not_self c hc i hi'.1 hint
    rw [pairPart_value ⟨c, hc, rfl, i, hi'.1, hint, rfl, rfl⟩ (isFace_back hs hc hi) hne h]
    unfold pairPart
    simp only [faceBlock_diagonal, blockDiagonal_skeleton, blockDiagonal_twoSided]
    by_cases hk : c.id = k'
    · have : i.outside ≠ k' := hk ▸ hne
      simp [hk, this]
    · simp [hk]
  rw [hown, List.map_congr_left hpair]
  by_cases hk : c.id = k' <;> simp [hk]

theorem entry_offDiagonal (ap : Bool) (cells : List Cell) (hg : ProperGrid ap cells) (hs : SharedFaces ap cells)
    (lop : Lop K) (x : GDof → K) (htwo : lop.twoSided = false) (hsym : SideSymmetric ap cells lop x)
    (c : Cell) (hc : c ∈ cells) (k' : Nat) (a b : LDof) :
    matrix ap cells (blockOffDiagonal lop) x (c.id, a) (k', b) =
      if c.id = k' then 0 else matrix ap cells lop x (c.id, a) (k', b) := by
  have hidx := indexFree_of_symmetric hsym
  rw [matrix_entry ap cells hg hs _ x (indexFree_offDiagonal hidx) c hc,
    matrix_entry ap cells hg hs _ x hidx c hc]
  have hown : ownTerms ap (blockOffDiagonal lop) x c a b = 0 := by
    unfold ownTerms
    simp [blockOffDiagonal]
  have hpair : ∀ i ∈ c.isects.filter (IsInterior ap), pairPart (blockOffDiagonal lop) x c.id i.face i.outside k' a b =
      if c.id = k' then 0 else pairPart lop x c.id i.face i.outside k' a b := by
    intro i hi
    have hi' := List.mem_filter.1 hi
    have hint : IsInterior ap i := by simpa using hi'.2
    have hne : i.outside ≠ c.id := hg.not_self c hc i hi'.1 hint
    have hf : IsFace ap cells c.id i.face i.outside := ⟨c, hc, rfl, i, hi'.1, hint, rfl, rfl⟩
    rw [pairPart_value hf (isFace_back hs hc hi) hne (Or.inl ⟨htwo, hsym⟩), hsym _ _ _ hf 0 0 .sn]
    unfold pairPart
    simp only [faceBlock_offDiagonal, blockOffDiagonal_skeleton, blockOffDiagonal_twoSided]
    by_cases hk : c.id = k'
    · have : i.outside ≠ k' := hk ▸ hne
      simp [hk, this]
    · simp [hk, swap]
  rw [hown, List.map_congr_left hpair]
  by_cases hk : c.id = k' <;> simp [hk]

end Verif.BlockOp
