import Mathlib.Algebra.Ring.Int.Defs
import Verif.Proofs.FastDGPattern
import Verif.Props.GridAssembler
import Verif.Model.OneStepMethod
/-
C205–C208: the FastDG grid operator computes what the default grid operator computes.
-/
namespace Verif
open GridAssembler FastDG

variable {K : Type} [Semiring K]

/-- **C205 (FastDG).** Residual and Jacobian application of the FastDG grid operator, for every local operator, grid and engine: no view is
used while unbound; the result vector is what was in it plus everything accumulated, always multiplied by the weight; the other vectors
are unchanged. The result vector must not be one of the vectors read. -/
theorem C205_fast_result_partial (E : Engine) (all : Bool) (grid : List Cell) (lop : Lop K) (srcs : List Nat) (dst : Nat) (hd : dst ∉ srcs)
    (w : K) (post : Vec K → Vec K) (m0 : Nat → Vec K) :
    ∃ s, (assemble E all grid).foldlM (Fast.step lop srcs dst w post) ⟨m0, none, none, none, none⟩ = some s ∧
      s.mem dst = post (assembled lop (aliasedScale w) (srcs.map m0) (assemble E all grid) (m0 dst)) ∧ ∀ a, a ≠ dst → s.mem a = m0 a := by
  obtain ⟨s, h1, h2⟩ := fast_run lop hd w post m0 (assemble E all grid) _ _ (C62_protocol E all grid) [] ⟨m0, none, none, none, none⟩
    trivial ⟨fun _ _ => rfl, by simp [entrySum]⟩
  refine ⟨s, h1, ?_, h2.1⟩
  rw [h2.2, if_pos rfl]; rfl

/-- **C205 (default).** The same for the default grid operator, where `rawAccumulate` bypasses the weight. The content of the local buffers
before the assembly does not matter. -/
theorem C205_default_result (E : Engine) (all : Bool) (grid : List Cell) (lop : Lop K) (srcs : List Nat) (dst : Nat) (hd : dst ∉ srcs)
    (w : K) (post : Vec K → Vec K) (m0 : Nat → Vec K) (xl xn : List (Nat → K)) (rl rn : Nat → K) :
    ((assemble E all grid).foldl (Default.step lop srcs dst w post) ⟨m0, xl, xn, rl, rn⟩).mem dst =
      post (assembled lop (localScale w) (srcs.map m0) (assemble E all grid) (m0 dst)) ∧
    ∀ a, a ≠ dst → ((assemble E all grid).foldl (Default.step lop srcs dst w post) ⟨m0, xl, xn, rl, rn⟩).mem a = m0 a := by
  have h := default_run lop hd w post m0 (assemble E all grid) _ _ (C62_protocol E all grid) [] ⟨m0, xl, xn, rl, rn⟩
    ⟨fun _ _ => rfl, by simp [entrySum]⟩
  exact ⟨h.2, h.1⟩

/-- **C205 (agreement).** The two grid operators compute the same vector if the weight is one or the local operator does not use
`rawAccumulate`. -/
theorem C205_fast_equals_default_partial (E : Engine) (all : Bool) (grid : List Cell) (lop : Lop K) (srcs : List Nat) (dst : Nat)
    (hd : dst ∉ srcs) (w : K) (post : Vec K → Vec K) (m0 : Nat → Vec K) (xl xn : List (Nat → K)) (rl rn : Nat → K)
    (h : w = 1 ∨ lop.NoRaw) :
    ∃ s, (assemble E all grid).foldlM (Fast.step lop srcs dst w post) ⟨m0, none, none, none, none⟩ = some s ∧
      s.mem = ((assemble E all grid).foldl (Default.step lop srcs dst w post) ⟨m0, xl, xn, rl, rn⟩).mem := by
  obtain ⟨s, h1, h2, h3⟩ := C205_fast_result_partial E all grid lop srcs dst hd w post m0
  obtain ⟨g2, g3⟩ := C205_default_result E all grid lop srcs dst hd w post m0 xl xn rl rn
  refine ⟨s, h1, funext fun a => ?_⟩
  by_cases ha : a = dst
  · subst ha
    rw [h2, g2]
    congr 1
    funext c i
    unfold assembled
    congr 1
    apply entrySum_congr
    intro p hp
    unfold aliasedScale localScale
    rcases h with rfl | h
    · simp
    · rw [if_neg]
      obtain ⟨e, _, he⟩ := List.mem_flatMap.mp hp
      unfold contributions at he
      obtain ⟨n1, n2, n3, n4⟩ := h
      split at he
      · split at he
        · obtain ⟨a, ha, rfl⟩ := List.mem_map.mp he; simp [n1 _ _ ha]
        · split at he
          · obtain ⟨a, ha, rfl⟩ := List.mem_map.mp he; simp [n3 _ _ _ ha]
          · split at he
            · obtain ⟨a, ha, rfl⟩ := List.mem_map.mp he; simp [n2 _ _ ha]
            · split at he
              · obtain ⟨a, ha, rfl⟩ := List.mem_map.mp he; simp [n4 _ _ _ _ ha]
              · simp at he
      · simp at he
  · rw [h3 a ha, g3 a ha]

/-- The local operator of the examples: it adds the first coefficient to the first residual, and on faces the difference. -/
def exampleLop (raw : Bool) : Lop Int :=
  { flag := fun _ => true
    lambda := fun _ => [⟨raw, 1, 10⟩]
    lambdaSkeleton := fun _ => [(.outside, ⟨raw, 1, 5⟩)]
    alpha := fun _ xs => xs.map fun x => ⟨raw, 0, x 0⟩
    alphaSkeleton := fun _ xs ys => [(.inside, ⟨raw, 0, (xs.map (· 0)).sum - (ys.map (· 0)).sum⟩), (.outside, ⟨raw, 0, 1⟩)] }

/-- The hypotheses are met by a non-trivial case, whose result depends on the grid and the coefficients. -/
example : (exampleLop false).NoRaw ∧ (1 : Nat) ∉ [0] ∧
    ((assemble (plainEngine false false) true twoCells).foldlM (Fast.step (exampleLop false) [0] 1 (3 : Int) id)
      ⟨fun a c i => if a = 0 then c + i else 100, none, none, none, none⟩).map
        (fun s => [s.mem 1 5 0, s.mem 1 5 1, s.mem 1 7 0, s.mem 1 7 1, s.mem 0 7 0]) = some [148, 205, 169, 190, 7] := by
  refine ⟨⟨?_, ?_, ?_, ?_⟩, by decide, by decide⟩
  · intro e a h; simp [exampleLop] at h; simp [h]
  · intro e a h; simp [exampleLop] at h; simp [h]
  · intro e xs a h; simp only [exampleLop, List.mem_map] at h; obtain ⟨_, _, rfl⟩ := h; rfl
  · intro e xs ys p h; simp [exampleLop] at h; rcases h with rfl | rfl <;> rfl

/-- **C205** is false in general (1): with a weight different from one, a local operator that uses `rawAccumulate` gets another result from
the FastDG grid operator, since `AliasedVectorView::WeightedAccumulationView::rawAccumulate` applies the weight. -/
theorem C205_raw_accumulate_false :
    ¬ ∀ (E : Engine) (all : Bool) (grid : List Cell) (lop : Lop Int) (srcs : List Nat) (dst : Nat) (w : Int) (post : Vec Int → Vec Int)
      (m0 : Nat → Vec Int), dst ∉ srcs → ∀ s,
      (assemble E all grid).foldlM (Fast.step lop srcs dst w post) ⟨m0, none, none, none, none⟩ = some s →
        s.mem dst 5 0 = ((assemble E all grid).foldl (Default.step lop srcs dst w post) ⟨m0, [], [], fun _ => 0, fun _ => 0⟩).mem dst 5 0 := by
  intro h
  obtain ⟨s, h1, h2, -⟩ := C205_fast_result_partial (plainEngine false false) true twoCells (exampleLop true) [0] 1 (by decide) (2 : Int) id
    (fun _ _ _ => 1)
  have := h _ _ _ _ _ _ _ _ _ (by decide) s h1
  rw [h2] at this
  revert this
  decide

/-- **C205** is false in general (2): if the result vector is also the vector read, FastDG sees its own accumulations, while the default
grid operator does not within one cell. -/
theorem C205_aliased_false :
    ¬ ∀ (E : Engine) (all : Bool) (grid : List Cell) (lop : Lop Int) (x : Nat) (m0 : Nat → Vec Int), lop.NoRaw →
      ((assemble E all grid).foldlM (Fast.step lop [x] x 1 id) ⟨m0, none, none, none, none⟩).map (fun s => s.mem x 5 0) =
        some (((assemble E all grid).foldl (Default.step lop [x] x 1 id) ⟨m0, [], [], fun _ => 0, fun _ => 0⟩).mem x 5 0) := by
  intro h
  have := h (plainEngine false false) true [twoCells[0]] { exampleLop false with lambda := fun _ => [⟨false, 0, 10⟩] } 0 (fun _ _ _ => 1)
    ⟨by intro e a h; simp at h; simp [h], by intro e a h; simp [exampleLop] at h; simp [h],
      by intro e xs a h; simp only [exampleLop, List.mem_map] at h; obtain ⟨_, _, rfl⟩ := h; rfl,
      by intro e xs ys p h; simp [exampleLop] at h; rcases h with rfl | rfl <;> rfl⟩
  revert this
  decide

/-! Jacobian -/

/-- **C206 (FastDG).** If the sparsity pattern has the blocks of all pairs of cells bound together, the Jacobian of the FastDG grid operator
is defined and is what was in the matrix plus everything accumulated, except that every row of a block with a constrained DOF is a row
of the identity. -/
theorem C206_fast_jacobian (E : Engine) (all : Bool) (grid : List Cell) (lop : JLop K) (pat : Nat → Nat → Bool)
    (hcov : Covers pat (assemble E all grid)) (cons : List (Nat × Nat)) (w : K) (x : Vec K) (A0 : Mat K) :
    ∃ s, (assemble E all grid).foldlM (JFast.step lop pat cons w x) ⟨A0, none, none, none, none, none, none⟩ = some s ∧
      ∀ r i c j, s.mat r i c j = if (∃ d ∈ cons, d.1 = r) then (if c = r ∧ j = i then 1 else 0)
        else A0 r i c j + matSum (matScale w) ((assemble E all grid).flatMap (matContributions lop x)) r i c j := by
  obtain ⟨s, h1, h2⟩ := jfast_run lop pat cons w x A0 (assemble E all grid) hcov _ _ (C62_protocol E all grid) []
    ⟨A0, none, none, none, none, none, none⟩ trivial (fun r i c j => by simp [matSum])
  refine ⟨s, h1, fun r i c j => ?_⟩
  rw [h2 r i c j]
  by_cases h : ∃ d ∈ cons, d.1 = r
  · rw [if_pos h, if_pos ⟨rfl, List.mem_map.mpr h⟩]
  · rw [if_neg h, if_neg (fun hh => h (List.mem_map.mp hh.2))]; rfl

/-- **C206 (default).** The same for the default grid operator, where only the rows of constrained DOFs are replaced. -/
theorem C206_default_jacobian [DecidableEq K] (E : Engine) (all : Bool) (grid : List Cell) (lop : JLop K) (n : Nat) (pat : Nat → Nat → Bool)
    (hcov : Covers pat (assemble E all grid)) (cons : List (Nat × Nat)) (w : K) (x : Vec K) (A0 : Mat K) (s0 : JDefault K)
    (h0 : s0.mat = A0) :
    ∃ s, (assemble E all grid).foldlM (JDefault.step lop n pat cons w x) s0 = some s ∧
      ∀ r c, ∀ i < n, ∀ j < n, s.mat r i c j = if (r, i) ∈ cons then (if c = r ∧ j = i then 1 else 0)
        else A0 r i c j + matSum (matScale w) ((assemble E all grid).flatMap (matContributions lop x)) r i c j := by
  obtain ⟨s, h1, h2⟩ := jdefault_run lop n pat cons w x A0 (assemble E all grid) hcov _ _ (C62_protocol E all grid) []
    s0 (by intro r c i _ j _; simp [matSum, h0])
  exact ⟨s, h1, h2⟩

/-- **C206 (agreement).** The two grid operators compute the same matrix, for any weight, if blocks are constrained entirely or not at all
(in particular without constraints). -/
theorem C206_fast_equals_default_partial [DecidableEq K] (E : Engine) (all : Bool) (grid : List Cell) (lop : JLop K) (n : Nat)
    (pat : Nat → Nat → Bool) (hcov : Covers pat (assemble E all grid)) (cons : List (Nat × Nat)) (hcons : WholeBlocks n cons) (w : K)
    (x : Vec K) (A0 : Mat K) (s0 : JDefault K) (h0 : s0.mat = A0) :
    ∃ f d, (assemble E all grid).foldlM (JFast.step lop pat cons w x) ⟨A0, none, none, none, none, none, none⟩ = some f ∧
      (assemble E all grid).foldlM (JDefault.step lop n pat cons w x) s0 = some d ∧
      ∀ r c, ∀ i < n, ∀ j < n, f.mat r i c j = d.mat r i c j := by
  obtain ⟨f, f1, f2⟩ := C206_fast_jacobian E all grid lop pat hcov cons w x A0
  obtain ⟨d, d1, d2⟩ := C206_default_jacobian E all grid lop n pat hcov cons w x A0 s0 h0
  refine ⟨f, d, f1, d1, fun r c i hi j hj => ?_⟩
  rw [f2, d2 r c i hi j hj]
  by_cases h : ∃ d ∈ cons, d.1 = r
  · have hm : (r, i) ∈ cons := by
      obtain ⟨d, hd, rfl⟩ := h
      exact hcons d hd i hi
    rw [if_pos h, if_pos hm]
  · rw [if_neg h, if_neg (fun hh => h ⟨_, hh, rfl⟩)]

/-- A Jacobian for the examples. -/
def exampleJLop : JLop Int :=
  { flag := fun _ => true
    jacobian := fun _ x => [⟨false, 0, 0, x 0⟩, ⟨true, 1, 1, 1⟩]
    jacobianSkeleton := fun _ x y => [(.ss, ⟨false, 0, 1, 2⟩), (.sn, ⟨false, 0, 0, x 0⟩), (.ns, ⟨false, 1, 0, y 0⟩), (.nn, ⟨true, 1, 1, 7⟩)] }

/-- The hypotheses are met. -/
example : (Covers (fun _ _ => true) (assemble (plainEngine false false) true twoCells)) ∧ WholeBlocks 2 [(5, 1), (5, 0)] ∧
    ((assemble (plainEngine false false) true twoCells).foldlM
      (JFast.step exampleJLop (fun _ _ => true) [(5, 1), (5, 0)] (3 : Int) fun c _ => (c : Int))
      ⟨fun _ _ _ _ => 0, none, none, none, none, none, none⟩).map
        (fun s => [s.mat 5 0 5 0, s.mat 5 1 7 0, s.mat 7 0 7 0, s.mat 7 0 5 0]) = some [1, 0, 63, 21] := by
  refine ⟨fun e _ => by simp, ?_, by decide⟩
  intro d hd i hi
  simp only [List.mem_cons, List.not_mem_nil, or_false] at hd
  have : i = 0 ∨ i = 1 := by omega
  rcases hd with rfl | rfl <;> rcases this with rfl | rfl <;> simp

/-- **C206** is false in general (1): if a block is constrained in part, FastDG also replaces its unconstrained rows
(`clear_row_block`), the default grid operator only the constrained ones (`clear_row`). -/
theorem C206_partial_blocks_false :
    ¬ ∀ (E : Engine) (all : Bool) (grid : List Cell) (lop : JLop Int) (pat : Nat → Nat → Bool) (cons : List (Nat × Nat)) (x : Vec Int),
      Covers pat (assemble E all grid) →
      ((assemble E all grid).foldlM (JFast.step lop pat cons 1 x) ⟨fun _ _ _ _ => 0, none, none, none, none, none, none⟩).map
          (fun s => s.mat 5 0 5 0) =
        ((assemble E all grid).foldlM (JDefault.step lop 2 pat cons 1 x)
          ⟨fun _ _ _ _ => 0, fun _ => 0, fun _ => 0, fun _ _ => 0, fun _ _ => 0, fun _ _ => 0, fun _ _ => 0⟩).map
          (fun s => s.mat 5 0 5 0) := by
  intro h
  have := h (plainEngine false false) true twoCells exampleJLop (fun _ _ => true) [(5, 1)] (fun c _ => (c : Int)) (fun e _ => by simp)
  revert this
  decide +kernel

/-- **C206** is false in general (2): the pattern must have the blocks of the neighbours even if the local operator does not couple them
(no skeleton pattern, but another term, here `flag`, makes the assembler visit the faces): the default grid operator leaves out the zeros,
FastDG needs the addresses of the blocks. -/
theorem C206_pattern_without_neighbours_false :
    ¬ ∀ (E : Engine) (all : Bool) (grid : List Cell) (lop : JLop Int) (pat : Nat → Nat → Bool) (x : Vec Int),
      ((assemble E all grid).foldlM (JDefault.step lop 2 pat [] 1 x)
          ⟨fun _ _ _ _ => 0, fun _ => 0, fun _ => 0, fun _ _ => 0, fun _ _ => 0, fun _ _ => 0, fun _ _ => 0⟩).isSome = true →
      ((assemble E all grid).foldlM (JFast.step lop pat [] 1 x)
        ⟨fun _ _ _ _ => 0, none, none, none, none, none, none⟩).isSome = true := by
  intro h
  have := h (plainEngine false false) true twoCells { exampleJLop with jacobianSkeleton := fun _ _ _ => [] } (fun r c => decide (r = c))
    (fun c _ => (c : Int)) (by decide +kernel)
  revert this
  decide +kernel

/-! Pattern -/

/-- **C207.** For local patterns that are empty or begin with the link between the first two functions, as those of the full volume and
skeleton patterns do, the FastDG grid operator fills the same pattern of blocks as the default one, whatever the grid and the engine. -/
theorem C207_same_pattern_partial (E : Engine) (all : Bool) (grid : List Cell) (lop : PLop) (hl : ∀ e, BeginsAtZero (lop.pattern e))
    (hs : ∀ e, BeginsAtZero (lop.patternSkeleton e).1 ∧ BeginsAtZero (lop.patternSkeleton e).2) :
    ∃ f d, (assemble E all grid).foldlM (PState.step addFast lop) ⟨[], [], [], []⟩ = some f ∧
      (assemble E all grid).foldlM (PState.step addDefault lop) ⟨[], [], [], []⟩ = some d ∧ ∀ q, q ∈ f.links ↔ q ∈ d.links := by
  obtain ⟨f, d, h1, h2, h3⟩ := pattern_run lop hl hs (assemble E all grid) ⟨[], [], [], []⟩ ⟨[], [], [], []⟩
    ⟨fun _ => Iff.rfl, rfl, rfl, rfl, .inl rfl, .inl rfl, .inl rfl⟩
  exact ⟨f, d, h1, h2, h3.1⟩

/-- **C207 (sufficient for the Jacobian).** If the local operator couples something on each cell and across each face in both directions,
the pattern filled over the whole grid has every block the Jacobian of any engine asks for on a part of the grid (C206 applies): a
face visited once from either side gives both blocks. -/
theorem C207_pattern_covers_jacobian_partial (EP EJ : Engine) (all : Bool) (part grid : List Cell) (hpart : PartOf all part grid)
    (lop : PLop) (hl : lop.Couples) (hs : ∀ c, EP.skipEntity c = false) (hs' : ∀ c f i, EP.skipIntersection c f i = false)
    (hu : EP.uvSkeleton = true) (h0 : ∀ e, BeginsAtZero (lop.pattern e))
    (h0' : ∀ e, BeginsAtZero (lop.patternSkeleton e).1 ∧ BeginsAtZero (lop.patternSkeleton e).2) :
    ∃ f, (assemble EP all grid).foldlM (PState.step addFast lop) ⟨[], [], [], []⟩ = some f ∧
      Covers (fun r c => decide ((r, c) ∈ f.links)) (assemble EJ all part) := by
  obtain ⟨f, d, h1, h2, h3⟩ := C207_same_pattern_partial EP all grid lop h0 h0'
  refine ⟨f, h1, ?_⟩
  have := covers_links addDefault addDefault_ok lop hl EP EJ all part grid hpart hs hs' hu (C62_protocol EP all grid) _ d h2
  intro e he
  simpa only [h3] using this e he

/-- A full pattern of two functions. -/
def fullPattern : PLop :=
  { flag := fun _ => true
    pattern := fun _ => [(0, 0), (0, 1), (1, 0), (1, 1)]
    patternSkeleton := fun _ => ([(0, 0), (0, 1), (1, 0), (1, 1)], [(0, 0), (0, 1), (1, 0), (1, 1)]) }

/-- A ring of three cells, each the neighbour of the other two. -/
def ring : List Cell :=
  [⟨1, [⟨0, true, false, 2, true, true⟩, ⟨2, true, true, 3, true, true⟩]⟩, ⟨2, [⟨1, true, false, 3, true, true⟩, ⟨0, true, false, 1, true, true⟩]⟩,
   ⟨3, [⟨2, true, true, 1, true, true⟩, ⟨1, true, false, 2, true, true⟩]⟩]

/-- The hypotheses of C207 are met. -/
example : fullPattern.Couples ∧ (∀ e, BeginsAtZero (fullPattern.pattern e)) ∧ (∀ e, BeginsAtZero (fullPattern.patternSkeleton e).1 ∧
    BeginsAtZero (fullPattern.patternSkeleton e).2) ∧ PartOf true (ring.take 2) ring ∧ (plainEngine false false).uvSkeleton = true ∧
    ((assemble (plainEngine false false) true ring).foldlM (PState.step addFast fullPattern) ⟨[], [], [], []⟩).map (fun s => s.links.length) =
      some 9 := by
  refine ⟨⟨rfl, rfl, fun e => ⟨by simp [fullPattern], by simp [fullPattern], by simp [fullPattern]⟩⟩, fun e => .inr rfl,
    fun e => ⟨.inr rfl, .inr rfl⟩, ?_, rfl, by decide⟩
  intro c hc
  refine ⟨List.mem_of_mem_take hc, ?_⟩
  simp only [ring, List.take_succ_cons, List.take_zero, List.mem_cons, List.not_mem_nil, or_false] at hc
  rcases hc with rfl | rfl
  · intro i hi _
    simp only [List.mem_cons, List.not_mem_nil, or_false] at hi
    rcases hi with rfl | rfl
    · exact ⟨_, List.mem_cons_of_mem _ List.mem_cons_self, rfl, ⟨0, true, false, 1, true, true⟩, by simp, ⟨rfl, .inl rfl⟩, rfl⟩
    · exact ⟨_, List.mem_cons_of_mem _ (List.mem_cons_of_mem _ List.mem_cons_self), rfl, ⟨2, true, true, 1, true, true⟩, by simp,
        ⟨rfl, .inl rfl⟩, rfl⟩
  · intro i hi _
    simp only [List.mem_cons, List.not_mem_nil, or_false] at hi
    rcases hi with rfl | rfl
    · exact ⟨_, List.mem_cons_of_mem _ (List.mem_cons_of_mem _ List.mem_cons_self), rfl, ⟨1, true, false, 2, true, true⟩, by simp,
        ⟨rfl, .inl rfl⟩, rfl⟩
    · exact ⟨_, List.mem_cons_self, rfl, ⟨0, true, false, 2, true, true⟩, by simp, ⟨rfl, .inl rfl⟩, rfl⟩

/-- **C207** is false in general: a sparse local pattern whose first link is not between the first two functions is fine for the default
grid operator, but FastDG uses an index its cache has not set. -/
theorem C207_sparse_pattern_false :
    ¬ ∀ (E : Engine) (all : Bool) (grid : List Cell) (lop : PLop),
      ((assemble E all grid).foldlM (PState.step addDefault lop) ⟨[], [], [], []⟩).isSome = true →
      ((assemble E all grid).foldlM (PState.step addFast lop) ⟨[], [], [], []⟩).isSome = true := by
  intro h
  have := h (plainEngine false false) true ring { fullPattern with pattern := fun _ => [(1, 1), (0, 0)] } (by decide)
  revert this
  decide

/-! Interpolation -/

/-- **C208.** `interpolate(xold, f, x)` of the FastDG grid operator with two different vectors: the constrained DOFs of `x` have the values of
`f`, the others those of `xold`; all other vectors, in particular `xold`, are unchanged. -/
theorem C208_fast_interpolate_partial {V D : Type} (constrained : D → Bool) (f : D → V) (src dst : Nat) (h : src ≠ dst) (mem : Nat → D → V) :
    (∀ d, FastDG.interpolate constrained f src dst mem dst d = if constrained d then f d else mem src d) ∧
    ∀ a, a ≠ dst → FastDG.interpolate constrained f src dst mem a = mem a := by
  constructor
  · intro d
    unfold FastDG.interpolate
    simp [h]
  · intro a ha
    unfold FastDG.interpolate
    simp [ha]

/-- **C208 (default).** The default grid operator does so even if `xold` and `x` are the same vector. -/
theorem C208_default_interpolate {V D : Type} (constrained : D → Bool) (f : D → V) (src dst : Nat) (mem : Nat → D → V) :
    (∀ d, OneStep.gridInterpolate constrained f src dst mem dst d = if constrained d then f d else mem src d) ∧
    ∀ a, a ≠ dst → OneStep.gridInterpolate constrained f src dst mem a = mem a := by
  constructor
  · intro d
    unfold OneStep.gridInterpolate OneStep.copyFree OneStep.upd
    by_cases h : src = dst
    · subst h; by_cases hc : constrained d <;> simp [hc]
    · by_cases hc : constrained d <;> simp [hc, h]
  · intro a ha
    unfold OneStep.gridInterpolate OneStep.upd
    simp [ha]

/-- **C208** is false of FastDG when `xold` and `x` are the same vector: the old values of the unconstrained DOFs are lost. -/
theorem C208_same_vector_false :
    ¬ ∀ (constrained : Nat → Bool) (f : Nat → Int) (x : Nat) (mem : Nat → Nat → Int) (d : Nat),
      FastDG.interpolate constrained f x x mem x d = if constrained d then f d else mem x d := by
  intro h
  have := h (fun d => d == 0) (fun _ => 5) 3 (fun _ _ => 1) 1
  revert this
  decide

/-- Both hypotheses of C208 are met: different vectors, with one constrained DOF. -/
example : FastDG.interpolate (fun d => d == 0) (fun _ => (5 : Int)) 2 3 (fun a _ => (a : Int)) 3 0 = 5 ∧
    FastDG.interpolate (fun d => d == 0) (fun _ => (5 : Int)) 2 3 (fun a _ => (a : Int)) 3 1 = 2 := by decide

end Verif
