import Verif.Proofs.GridViewOrdering
/-! Properties C87 and C88: entity-wise orderings of composite spaces. -/
namespace Verif
open GridViewOrdering PSums
open LeafOrdering (Key Grid Uniform dofCount)

/-! ### C87 numbering -/

/-- One cell with two edges; two DOFs on edge 0 and one DOF on edge 1, in a product space with one factor. -/
def gvoEdges : Space := .node false 1 fun _ => .leaf none [[⟨0, 0, 0⟩, ⟨0, 0, 1⟩, ⟨0, 1, 0⟩]]

/-- **C87 is false for the code as it is** (1): like for leaf orderings, the automatic detection of fixed sizes looks only
at one entity per cell and type. -/
theorem C87_detection_false :
    ¬ ∀ (m : Mesh) (s : Space) (g : GVO), s.Valid m → update m s = some g →
        ∀ t e p t' e' p', Dof m s t e p → Dof m s t' e' p' → g.mapIndex t e p = g.mapIndex t' e' p' →
          t = t' ∧ e = e' ∧ p = p' := by
  intro h
  let m : Mesh := ⟨1, fun _ => 2⟩
  have hv : gvoEdges.Valid m := by
    refine ⟨by decide, fun c _ => ?_⟩
    intro c hc k hk
    simp at hc
    subst hc
    have : k = ⟨0, 0, 0⟩ ∨ k = ⟨0, 0, 1⟩ ∨ k = ⟨0, 1, 0⟩ := by simpa using hk
    rcases this with rfl | rfl | rfl <;> exact ⟨by decide, by decide⟩
  have hs : (update m gvoEdges).isSome = true := by decide +kernel
  obtain ⟨g, hg⟩ := Option.isSome_iff_exists.1 hs
  have heq : (update m gvoEdges).bind (fun g => g.mapIndex 0 0 [0, 1]) =
      (update m gvoEdges).bind (fun g => g.mapIndex 0 1 [0, 0]) := by decide +kernel
  rw [hg] at heq
  have := h m gvoEdges g hv hg 0 0 [0, 1] 0 1 [0, 0]
    ⟨by decide, by decide, 0, [1], rfl, by decide, 1, rfl, by decide +kernel⟩
    ⟨by decide, by decide, 0, [0], rfl, by decide, 0, rfl, by decide +kernel⟩ heq
  simp at this

/-- Vertices (type 0) and cells (type 1): a leaf with DOFs on vertices and a leaf with DOFs on cells. -/
def gvoP1 : Space := .leaf (some fun t => if t = 0 then 1 else 0) []
def gvoP0 : Space := .leaf (some fun t => if t = 0 then 0 else 1) []

/-- A product of two blocked products `P0 x P0 x P1` and `P0 x P1`. -/
def gvoNested : Space :=
  .node true 2 fun c => if c = 0 then .node true 3 fun i => if i = 2 then gvoP1 else gvoP0
    else .node true 2 fun i => if i = 1 then gvoP1 else gvoP0

/-- **C87 is false for the code as it is** (2): the offset of a child that is itself blocked by the container is counted in
DOFs, but its indices are child numbers, which can be larger if some of its children have no DOFs on an
entity. -/
theorem C87_nested_false :
    ¬ ∀ (m : Mesh) (s : Space) (g : GVO), s.Valid m → s.LeavesOk m → update m s = some g →
        ∀ t e p t' e' p', Dof m s t e p → Dof m s t' e' p' → g.mapIndex t e p = g.mapIndex t' e' p' →
          t = t' ∧ e = e' ∧ p = p' := by
  intro h
  let m : Mesh := ⟨2, fun t => if t = 0 then 3 else 2⟩
  have hp : ∀ s : Space, s = gvoP0 ∨ s = gvoP1 → s.Valid m ∧ s.LeavesOk m := by
    rintro s (rfl | rfl) <;> exact ⟨(by intro c hc; simp at hc), trivial⟩
  have hin : ∀ i k : Nat, (if i = k then gvoP1 else gvoP0).Valid m ∧ (if i = k then gvoP1 else gvoP0).LeavesOk m := by
    intro i k
    split <;> exact hp _ (by simp)
  have hv : gvoNested.Valid m ∧ gvoNested.LeavesOk m := by
    refine ⟨⟨by decide, fun c _ => ?_⟩, fun c _ => ?_⟩
    · beta_reduce
      split
      · exact ⟨by decide, fun c _ => (hin c 2).1⟩
      · exact ⟨by decide, fun c _ => (hin c 1).1⟩
    · beta_reduce
      split
      · exact fun c _ => (hin c 2).2
      · exact fun c _ => (hin c 1).2
  have hs : (update m gvoNested).isSome = true := by decide +kernel
  obtain ⟨g, hg⟩ := Option.isSome_iff_exists.1 hs
  have heq : (update m gvoNested).bind (fun g => g.mapIndex 0 1 [0, 2, 0]) =
      (update m gvoNested).bind (fun g => g.mapIndex 0 1 [1, 1, 0]) := by decide +kernel
  rw [hg] at heq
  have := h m gvoNested g hv.1 hv.2 hg 0 1 [0, 2, 0] 0 1 [1, 1, 0]
    ⟨by decide, by decide, 0, [2, 0], rfl, by decide, 2, [0], rfl, by decide, 0, rfl, by decide⟩
    ⟨by decide, by decide, 1, [1, 0], rfl, by decide, 1, [0], rfl, by decide, 0, rfl, by decide⟩ heq
  simp at this

/-- **C87 (partial)**, no collisions: the entity-wise ordering of a tree of spaces maps different DOFs to different
container indices, for every grid, every tree, blocked or not, if the sizes found for the leaves are right
and every nested blocked node has DOFs in all of its children or in none, entity by entity.
Missing: the two cases in which the claim is false (see above). -/
theorem C87_injective_partial (m : Mesh) (s : Space) (hv : s.Valid m) (hl : s.LeavesOk m)
    (hd : ∀ t e, t < m.types → e < m.count t → s.InnerDense t e) :
    ∃ g, update m s = some g ∧ g.size = dofTotal m s ∧
      ∀ t e p t' e' p', Dof m s t e p → Dof m s t' e' p' → g.mapIndex t e p = g.mapIndex t' e' p' →
        t = t' ∧ e = e' ∧ p = p' := by
  obtain ⟨g, P, W, h1, _, h2⟩ := gvo_ok hv hl
  refine ⟨g, h1, h2.total, ?_⟩
  intro t e p t' e' p' hp hp' heq
  obtain ⟨ht, he, hp⟩ := hp
  obtain ⟨ht', he', hp'⟩ := hp'
  have hinj := mapLocal_inj _ (disable_valid hv) (disable_leaves hl) ht he (disable_dense (hd t e ht he))
  have hinj' := mapLocal_inj _ (disable_valid hv) (disable_leaves hl) ht' he' (disable_dense (hd t' e' ht' he'))
  obtain ⟨x, r, hx, hlt⟩ := hinj.1 p (by rw [disable_dof]; exact hp)
  obtain ⟨x', r', hx', hlt'⟩ := hinj'.1 p' (by rw [disable_dof]; exact hp')
  rw [disable_total] at hlt hlt'
  have m1 := h2.map t e p (x :: r) ht he (dof_total_pos hp) (by rw [h2.loc]; exact hx)
  have m2 := h2.map t' e' p' (x' :: r') ht' he' (dof_total_pos hp') (by rw [h2.loc]; exact hx')
  rw [m1, m2] at heq
  have hpos := dof_total_pos hp
  have hpos' := dof_total_pos hp'
  have key : t = t' ∧ e = e' ∧ x :: r = x' :: r' := by
    cases hb : s.blocked with
    | true =>
      rw [hb] at heq
      simp only [if_true, Option.some.injEq, List.cons.injEq] at heq
      obtain ⟨a1, a2, _⟩ := h2.packing.inj t e 0 t' e' 0 ht he (by simp [width, hb, hpos]) ht' he'
        (by simp [width, hb, hpos']) (by omega)
      exact ⟨a1, a2, by rw [heq.2.1, heq.2.2]⟩
    | false =>
      rw [hb] at heq
      simp only [Bool.false_eq_true, if_false, addBack, Option.some.injEq, List.cons.injEq] at heq
      obtain ⟨a1, a2, a3⟩ := h2.packing.inj t e x t' e' x' ht he (by simpa [width, hb] using hlt) ht' he'
        (by simpa [width, hb] using hlt') (by omega)
      exact ⟨a1, a2, by rw [a3, heq.2]⟩
  obtain ⟨rfl, rfl, hxr⟩ := key
  refine ⟨rfl, rfl, ?_⟩
  apply hinj.2 p p' (by rw [disable_dof]; exact hp) (by rw [disable_dof]; exact hp')
  rw [hx, hx', hxr]

/-- **C87 (partial)**, bijection: if nested nodes are not blocked, an unblocked entity-wise ordering gives every entity a
contiguous range of `0..size()-1` containing the DOFs of all leaves; a blocked one gives every entity with
DOFs its own block below `blockCount()`, all entries of all blocks are used and `size({b})` is the number
of entries of block `b`. -/
theorem C87_bijection_partial (m : Mesh) (s : Space) (hv : s.Valid m) (hl : s.LeavesOk m) (hf : s.InnerFlat) :
    ∃ g, update m s = some g ∧ g.size = dofTotal m s ∧
      (s.blocked = false → FlatNumbering m s g.size g.mapIndex) ∧
      (s.blocked = true → BlockNumbering m s g.blockCount (fun b => g.sizeOf 2 [b]) g.mapIndex) := by
  obtain ⟨g', h1', _, hinj⟩ := C87_injective_partial m s hv hl (fun t e _ _ => innerFlat_dense hf t e)
  obtain ⟨g, P, W, h1, _, h2⟩ := gvo_ok hv hl
  rw [h1] at h1'
  injection h1' with h1'
  subst h1'
  refine ⟨g, h1, h2.total, ?_, ?_⟩
  · intro hb
    have hW := h2.whole hb
    refine ⟨hinj, ?_, P, ?_⟩
    · intro k hk
      obtain ⟨t, e, j, ht, he, hj, rfl⟩ := h2.packing.surj k (by rw [hW]; exact hk)
      have hj : j < s.total t e := by simpa [width, hb] using hj
      obtain ⟨p, hp, hx⟩ := (mapLocal_flat _ (disable_valid hv) (disable_leaves hl) (disable_flat hf) ht he).2 j
        (by rw [disable_total]; exact hj)
      rw [disable_dof] at hp
      refine ⟨t, e, p, ⟨ht, he, hp⟩, ?_⟩
      rw [h2.map t e p [j] ht he (by omega) (by rw [h2.loc]; exact hx), hb]
      simp [addBack, Nat.add_comm]
    · rintro t e p ⟨ht, he, hp⟩
      obtain ⟨x, hx, hlt⟩ := (mapLocal_flat _ (disable_valid hv) (disable_leaves hl) (disable_flat hf) ht he).1 p
        (by rw [disable_dof]; exact hp)
      rw [disable_total] at hlt
      refine ⟨x, hlt, ?_, ?_⟩
      · rw [h2.map t e p [x] ht he (by omega) (by rw [h2.loc]; exact hx), hb]
        simp [addBack, Nat.add_comm]
      · rw [← hW]; exact h2.packing.lt t e x ht he (by simpa [width, hb] using hlt)
  · intro hb
    have hW := h2.count (Or.inl hb)
    have hmap : ∀ t e p, Dof m s t e p → ∃ j, j < s.total t e ∧ g.mapIndex t e p = some [P t e, j] := by
      rintro t e p ⟨ht, he, hp⟩
      obtain ⟨x, hx, hlt⟩ := (mapLocal_flat _ (disable_valid hv) (disable_leaves hl) (disable_flat hf) ht he).1 p
        (by rw [disable_dof]; exact hp)
      rw [disable_total] at hlt
      refine ⟨x, hlt, ?_⟩
      rw [h2.map t e p [x] ht he (by omega) (by rw [h2.loc]; exact hx), hb]
      rfl
    have hw1 : ∀ t e, 0 < s.total t e → (0 : Nat) < width s.blocked (s.total t e) := by
      intro t e h; simp [width, hb, h]
    have hdof : ∀ t e j, t < m.types → e < m.count t → j < s.total t e →
        ∃ p, Dof m s t e p ∧ g.mapIndex t e p = some [P t e, j] := by
      intro t e j ht he hj
      obtain ⟨p, hp, hx⟩ := (mapLocal_flat _ (disable_valid hv) (disable_leaves hl) (disable_flat hf) ht he).2 j
        (by rw [disable_total]; exact hj)
      rw [disable_dof] at hp
      refine ⟨p, ⟨ht, he, hp⟩, ?_⟩
      rw [h2.map t e p [j] ht he (by omega) (by rw [h2.loc]; exact hx), hb]
      rfl
    have hent : ∀ b, b < g.blockCount → ∃ t e, t < m.types ∧ e < m.count t ∧ 0 < s.total t e ∧ P t e = b := by
      intro b hbl
      obtain ⟨t, e, j, ht, he, hj, rfl⟩ := h2.packing.surj b (by rw [← hW]; exact hbl)
      have : 0 < s.total t e ∧ j = 0 := by
        simp only [width, hb, if_true] at hj
        split at hj <;> omega
      exact ⟨t, e, ht, he, this.1, by rw [this.2]; rfl⟩
    refine ⟨hinj, P, ?_, ?_, ?_, ?_⟩
    · rintro t e p hd
      have hpos := dof_total_pos hd.2.2
      refine ⟨?_, ?_, hmap t e p hd⟩
      · rw [hW]; exact h2.packing.lt t e 0 hd.1 hd.2.1 (hw1 t e hpos)
      · exact h2.sizeOf t e 0 2 hd.1 hd.2.1 (hw1 t e hpos) hb (by decide)
    · rintro t e p t' e' p' hd hd' heq
      obtain ⟨a, b, _⟩ := h2.packing.inj t e 0 t' e' 0 hd.1 hd.2.1 (hw1 t e (dof_total_pos hd.2.2)) hd'.1 hd'.2.1
        (hw1 t' e' (dof_total_pos hd'.2.2)) (by omega)
      exact ⟨a, b⟩
    · intro b n j hbl hn hj
      obtain ⟨t, e, ht, he, hpos, rfl⟩ := hent b hbl
      have : g.sizeOf 2 [P t e] = some (s.total t e) := h2.sizeOf t e 0 2 ht he (hw1 t e hpos) hb (by decide)
      rw [this] at hn
      injection hn with hn
      obtain ⟨p, hp⟩ := hdof t e j ht he (by omega)
      exact ⟨t, e, p, hp⟩
    · intro b hbl
      obtain ⟨t, e, ht, he, hpos, rfl⟩ := hent b hbl
      obtain ⟨p, hp, _⟩ := hdof t e 0 ht he hpos
      exact ⟨t, e, p, hp, rfl⟩

/-- `P2 x P2 x P1` (Taylor-Hood) on two segments: types 0 = vertices, 1 = segments. -/
def gvoTaylorHood (blocked : Bool) : Space :=
  .node blocked 2 fun c => if c = 0 then .node false 2 fun _ => .leaf (some fun _ => 1) [] else gvoP1

/-- A product of a p-adaptive DG space (2 DOFs on segment 0, 1 on segment 1) and `P1`. -/
def adaptiveProduct (blocked : Bool) : Space :=
  .node blocked 2 fun c => if c = 0 then .leaf none [[⟨1, 0, 0⟩, ⟨1, 0, 1⟩], [⟨1, 1, 0⟩]] else gvoP1

def segments2 : Mesh := ⟨2, fun t => if t = 0 then 3 else 2⟩

theorem gvoTaylorHood_ok (b : Bool) : (gvoTaylorHood b).Valid segments2 ∧ (gvoTaylorHood b).LeavesOk segments2 ∧ (gvoTaylorHood b).InnerFlat := by
  refine ⟨⟨by decide, fun c _ => ?_⟩, fun c _ => ?_, fun c _ => ?_⟩ <;> beta_reduce <;> split
  · exact ⟨by decide, fun c _ => by intro c hc; simp at hc⟩
  · intro c hc; simp at hc
  · exact fun c _ => trivial
  · trivial
  · exact ⟨rfl, fun c _ => trivial⟩
  · trivial

theorem adaptiveProduct_ok (b : Bool) :
    (adaptiveProduct b).Valid segments2 ∧ (adaptiveProduct b).LeavesOk segments2 ∧ (adaptiveProduct b).InnerFlat := by
  refine ⟨⟨by decide, fun c _ => ?_⟩, fun c _ => ?_, fun c _ => ?_⟩ <;> beta_reduce <;> split
  · intro c hc k hk
    simp at hc
    rcases hc with rfl | rfl <;> simp at hk
    · rcases hk with rfl | rfl <;> exact ⟨by decide, by decide⟩
    · subst hk; exact ⟨by decide, by decide⟩
  · intro c hc; simp at hc
  · right; decide +kernel
  · trivial
  · trivial
  · trivial

example : ((update segments2 (gvoTaylorHood false)).bind fun g => g.mapIndex 1 1 [0, 1, 0]) = some [12] ∧
    ((update segments2 (gvoTaylorHood true)).bind fun g => g.mapIndex 0 2 [1, 0]) = some [2, 2] ∧
    ((update segments2 (gvoTaylorHood true)).bind fun g => g.sizeOf 2 [4]) = some 2 ∧
    ((update segments2 (adaptiveProduct true)).bind fun g => g.mapIndex 1 1 [0, 0]) = some [4, 0] ∧
    ((update segments2 (adaptiveProduct true)).bind fun g => g.sizeOf 2 [3]) = some 2 ∧
    ((update segments2 (adaptiveProduct true)).map fun g => g.fixed) = some false := by decide +kernel

/-- The hypotheses on nested blocks are met by two blocked products that have the same elements in all components. -/
example : (Space.node true 2 fun _ => Space.node true 2 fun _ => gvoP1).InnerDense 0 1 ∧
    (Space.node true 2 fun _ => Space.node true 2 fun _ => gvoP1).InnerDense 1 1 := by
  refine ⟨fun c _ => ⟨fun _ => Or.inl fun c _ => (by decide : 0 < gvoP1.total 0 1), fun c _ => trivial⟩,
    fun c _ => ⟨fun _ => Or.inr fun c _ => (by decide : gvoP1.total 1 1 = 0), fun c _ => trivial⟩⟩

/-! ### C88 sizes -/

/-- **C88 is false for the code as it is** (1): with entity-dependent sizes an unblocked entity-wise ordering reports the
number of entities with DOFs as its block count, so indices lie beyond `size({})`. -/
theorem C88_unblocked_false :
    ¬ ∀ (m : Mesh) (s : Space) (g : GVO) (depth t e : Nat) (p : List Nat) (pre post : List Nat) (j : Nat),
        s.Valid m → s.LeavesOk m → s.InnerFlat → update m s = some g → Dof m s t e p →
        g.mapIndex t e p = some (pre ++ j :: post) → (pre ++ j :: post).length ≤ depth →
        ∃ n, g.sizeOf depth pre = some n ∧ j < n := by
  intro h
  let s := adaptiveProduct false
  have hs : (update segments2 s).isSome = true := by decide +kernel
  obtain ⟨g, hg⟩ := Option.isSome_iff_exists.1 hs
  have h1 : (update segments2 s).bind (fun g => g.mapIndex 1 1 [0, 0]) = some [5] := by decide +kernel
  have h2 : (update segments2 s).bind (fun g => g.sizeOf 1 []) = some 5 := by decide +kernel
  rw [hg] at h1 h2
  obtain ⟨n, hn, hlt⟩ := h segments2 s g 1 1 1 [0, 0] [] [] 5 (adaptiveProduct_ok false).1 (adaptiveProduct_ok false).2.1
    (adaptiveProduct_ok false).2.2 hg ⟨by decide, by decide, 0, [0], rfl, by decide, 0, rfl, by decide +kernel⟩ h1 (by decide)
  simp only [Option.bind_some] at h2
  rw [hn] at h2
  injection h2 with h2
  omega

/-- Two blocked products of two leaves each. -/
def gvoBlocks : Space := .node true 2 fun _ => .node true 2 fun _ => .leaf (some fun _ => 1) []

/-- **C88 is false for the code as it is** (2): for nested blocks `size(suffix)` looks up the wrong child. -/
theorem C88_nested_false :
    ¬ ∀ (m : Mesh) (s : Space) (g : GVO) (depth t e : Nat) (p : List Nat) (pre post : List Nat) (j : Nat),
        s.Valid m → s.LeavesOk m → (∀ t e, s.Dense t e) → s.blocked = true → update m s = some g → Dof m s t e p →
        g.mapIndex t e p = some (pre ++ j :: post) → (pre ++ j :: post).length ≤ depth →
        ∃ n, g.sizeOf depth pre = some n ∧ j < n := by
  intro h
  let m : Mesh := ⟨1, fun _ => 1⟩
  have hs : (update m gvoBlocks).isSome = true := by decide +kernel
  obtain ⟨g, hg⟩ := Option.isSome_iff_exists.1 hs
  have h1 : (update m gvoBlocks).bind (fun g => g.mapIndex 0 0 [1, 0, 0]) = some [0, 2, 0] := by decide +kernel
  have h2 : (update m gvoBlocks).bind (fun g => g.sizeOf 3 [0, 2]) = none := by decide +kernel
  rw [hg] at h1 h2
  obtain ⟨n, hn, hlt⟩ := h m gvoBlocks g 3 0 0 [1, 0, 0] [0, 2] [] 0
    ⟨by decide, fun c _ => ⟨by decide, fun c _ => by intro c hc; simp at hc⟩⟩ (fun c _ c _ => trivial)
    (fun t e => ⟨fun _ => Or.inl fun c _ => Nat.succ_pos 1, fun c _ => ⟨fun _ => Or.inl fun c _ => Nat.succ_pos 0, fun c _ => trivial⟩⟩)
    rfl hg ⟨by decide, by decide, 1, [0, 0], rfl, by decide, 0, [0], rfl, by decide, 0, rfl, by decide⟩ h1 (by decide)
  simp only [Option.bind_some] at h2
  rw [hn] at h2
  simp at h2

/-- **C88 (partial)**: every entry of a container index lies below the size reported for the entries outside of it, if
nested nodes are not blocked and the ordering is blocked or has fixed sizes. Missing: unblocked orderings with
entity-dependent sizes and nested blocks, where the claim is false (see above). -/
theorem C88_indices_below_sizes_partial (m : Mesh) (s : Space) (g : GVO) (depth t e : Nat) (p : List Nat)
    (pre post : List Nat) (j : Nat) (hv : s.Valid m) (hl : s.LeavesOk m) (hf : s.InnerFlat) (hg : update m s = some g)
    (hb : s.blocked = true ∨ (s.disableBlocking.localOrdering m).fixed = true)
    (hd : Dof m s t e p) (hm : g.mapIndex t e p = some (pre ++ j :: post)) (hlen : (pre ++ j :: post).length ≤ depth) :
    ∃ n, g.sizeOf depth pre = some n ∧ j < n := by
  obtain ⟨g', P, W, h1, hfx, h2⟩ := gvo_ok hv hl
  rw [hg] at h1
  injection h1 with h1
  subst h1
  obtain ⟨ht, he, hp⟩ := hd
  have hpos := dof_total_pos hp
  obtain ⟨x, hx, hlt⟩ := (mapLocal_flat _ (disable_valid hv) (disable_leaves hl) (disable_flat hf) ht he).1 p
    (by rw [disable_dof]; exact hp)
  rw [disable_total] at hlt
  rw [h2.map t e p [x] ht he hpos (by rw [h2.loc]; exact hx)] at hm
  have hW : g.blockCount = W := h2.count (by rw [hfx]; exact hb)
  have hempty : depth ≠ 0 → g.sizeOf depth [] = some g.blockCount := by
    intro h
    simp only [GVO.sizeOf, List.length_nil]
    rw [if_neg (Ne.symm h)]
  cases hbl : s.blocked with
  | false =>
    rw [hbl] at hm
    simp only [Bool.false_eq_true, if_false, addBack, Option.some.injEq] at hm
    cases pre with
    | nil =>
      simp only [List.nil_append, List.cons.injEq] at hm
      refine ⟨_, hempty (by simp at hlen; omega), ?_⟩
      have := h2.packing.lt t e x ht he (by simpa [width, hbl] using hlt)
      omega
    | cons a as =>
      have := congrArg List.length hm
      simp at this
  | true =>
    rw [hbl] at hm
    simp only [if_true, Option.some.injEq] at hm
    cases pre with
    | nil =>
      simp only [List.nil_append, List.cons.injEq] at hm
      refine ⟨_, hempty (by simp at hlen; omega), ?_⟩
      have := h2.packing.lt t e 0 ht he (by simp [width, hbl, hpos])
      omega
    | cons a as =>
      cases as with
      | nil =>
        simp only [List.cons_append, List.nil_append, List.cons.injEq] at hm
        refine ⟨s.total t e, ?_, by omega⟩
        have := h2.sizeOf t e 0 depth ht he (by simp [width, hbl, hpos]) hbl (by simp at hlen; omega)
        rw [Nat.add_zero, hm.1] at this
        exact this
      | cons b bs =>
        have := congrArg List.length hm
        simp at this

/-- **C88 (partial)**: `size(gt,entity)` is the number of DOFs of the space on the entity, `size(gt,entity,child)` the one of
a child and `offset(gt,entity,child)` the number of DOFs of the children before it. -/
theorem C88_entity_sizes_partial (m : Mesh) (b : Bool) (n : Nat) (child : Nat → Space) (hv : (Space.node b n child).Valid m)
    (hl : (Space.node b n child).LeavesOk m) (t e : Nat) (ht : t < m.types) (he : e < m.count t) :
    ((Space.node b n child).localOrdering m).size t e = some ((Space.node b n child).total t e) ∧
    ∀ c, c < n → ((Space.node b n child).localOrdering m).childSize t e c = some ((child c).total t e) ∧
      (0 < (Space.node b n child).total t e →
        ((Space.node b n child).localOrdering m).offset t e c = some (((List.range c).map fun i => (child i).total t e).sum)) := by
  refine ⟨(loc_ok _ hv hl).size t e ht he, ?_⟩
  intro c hc
  have hch : ∀ c, c < n → LocOk m (child c) ((child c).localOrdering m) :=
    fun c hc => loc_ok _ (hv.2 c hc) (hl c hc)
  obtain ⟨a, h1, h2⟩ := nodeArrays_ok (m := m) (n := n) (child := child)
    (lchild := fun c => (child c).localOrdering m) hch
  have hloc : (Space.node b n child).localOrdering m = .node b (some a) n fun c => (child c).localOrdering m := by
    simp only [Space.localOrdering, h1]
  rw [hloc]
  have hu : a.gtUsed[t]? = some ((List.range n).any fun c => ((child c).localOrdering m).contains t) := by
    rw [h2.used, List.getElem?_map, List.getElem?_range ht]; rfl
  have hunused : ((List.range n).any fun c => ((child c).localOrdering m).contains t) = false →
      ∀ c, c < n → (child c).total t e = 0 := by
    intro hany c hc
    apply (hch c hc).unused t e ht he
    rw [List.any_eq_false] at hany
    simpa using hany c (List.mem_range.2 hc)
  let S : Nat → Nat := fun c => (child c).total t e
  have hsub : ∀ c, psum S (c + 1) - psum S c = S c := by intro c; rw [psum_succ]; omega
  constructor
  · change (if c < n then (if a.fixed then
        a.gtDofOffsets[t * n + c]?.bind fun x =>
          if 0 < c then a.gtDofOffsets[t * n + c - 1]?.map fun y => x - y else some x
      else a.gtUsed[t]?.bind fun u =>
        if u then a.gtEntityOffsets[t]?.bind fun off =>
          a.entityDofOffsets[(off + e) * n + c]?.bind fun x =>
            if 0 < c then a.entityDofOffsets[(off + e) * n + c - 1]?.map fun y => x - y else some x
        else some 0) else none) = _
    rw [if_pos hc]
    cases hf : a.fixed with
    | true =>
      obtain ⟨F, f1, f2⟩ := h2.fx hf
      have hF : ∀ k, k ≤ n → psum (F t) k = psum S k := by
        intro k hk
        apply psum_congr
        intro i hi
        exact f2 t e i ht he (by omega)
      simp only [if_true]
      rw [f1 t c ht hc, Option.bind_some, hF (c + 1) (by omega)]
      by_cases h0 : 0 < c
      · rw [if_pos h0, show t * n + c - 1 = t * n + (c - 1) by omega, f1 t (c - 1) ht (by omega),
          show c - 1 + 1 = c by omega, hF c (by omega), Option.map_some, hsub]
      · have : c = 0 := by omega
        subst this
        simp [psum_succ, S]
    | false =>
      obtain ⟨off, o1⟩ := h2.var hf
      simp only [Bool.false_eq_true, if_false, hu, Option.bind_some]
      cases hany : (List.range n).any fun c => ((child c).localOrdering m).contains t with
      | false =>
        simp only [Bool.false_eq_true, if_false]
        rw [hunused hany c hc]
      | true =>
        obtain ⟨o2, o3⟩ := o1 t ht hany
        simp only [if_true, o2, Option.bind_some]
        rw [o3 e c he hc, Option.bind_some]
        by_cases h0 : 0 < c
        · rw [if_pos h0, show (off t + e) * n + c - 1 = (off t + e) * n + (c - 1) by omega, o3 e (c - 1) he (by omega),
            show c - 1 + 1 = c by omega, Option.map_some]
          exact congrArg some (hsub c)
        · have : c = 0 := by omega
          subst this
          simp [psum_succ]
  · intro hpos
    change (if c < n then (a.gtUsed[t]?.bind fun u =>
      if u then
        if a.fixed then
          if 0 < c then a.gtDofOffsets[t * n + c - 1]? else some 0
        else
          if 0 < c then a.gtEntityOffsets[t]?.bind fun off => a.entityDofOffsets[(off + e) * n + c - 1]?
          else some 0
      else none) else none) = some (psum S c)
    rw [if_pos hc, hu, Option.bind_some]
    have hany : ((List.range n).any fun c => ((child c).localOrdering m).contains t) = true := by
      cases hany : (List.range n).any fun c => ((child c).localOrdering m).contains t with
      | true => rfl
      | false =>
        have : (Space.node b n child).total t e = 0 := by
          simp only [Space.total]
          apply List.sum_eq_zero
          intro x hx
          obtain ⟨i, hi, rfl⟩ := List.mem_map.1 hx
          exact hunused hany i (List.mem_range.1 hi)
        omega
    rw [if_pos hany]
    by_cases h0 : 0 < c
    · cases hf : a.fixed with
      | true =>
        obtain ⟨F, f1, f2⟩ := h2.fx hf
        rw [if_pos rfl, if_pos h0, show t * n + c - 1 = t * n + (c - 1) by omega, f1 t (c - 1) ht (by omega),
          show c - 1 + 1 = c by omega]
        congr 1
        apply psum_congr
        intro i hi
        exact f2 t e i ht he (by omega)
      | false =>
        obtain ⟨off, o1⟩ := h2.var hf
        obtain ⟨o2, o3⟩ := o1 t ht hany
        simp only [Bool.false_eq_true, if_false, o2, Option.bind_some]
        rw [if_pos h0, show (off t + e) * n + c - 1 = (off t + e) * n + (c - 1) by omega, o3 e (c - 1) he (by omega),
            show c - 1 + 1 = c by omega]
    · have : c = 0 := by omega
      subst this
      simp

example : ((gvoTaylorHood false).localOrdering segments2).size 0 1 = some 3 ∧
    ((gvoTaylorHood false).localOrdering segments2).childSize 0 1 0 = some 2 ∧
    ((gvoTaylorHood false).localOrdering segments2).offset 0 1 1 = some 2 ∧
    ((adaptiveProduct false).localOrdering segments2).childSize 1 0 0 = some 2 := by decide +kernel

end Verif
