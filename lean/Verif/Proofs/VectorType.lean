import Mathlib.Data.Nat.Basic
import Mathlib.Algebra.BigOperators.Group.List.Basic
import Verif.Spec.VectorType
/-
Auxiliary results for `Verif.Props.VectorType`.
-/
namespace Verif.VectorType

theorem mapM_some {β : Type} (f : Nat → Option β) : ∀ (l : List Nat) (ds : List β), l.mapM f = some ds →
    ds.length = l.length ∧ ∀ (k i : Nat), l[k]? = some i → ∃ d, ds[k]? = some d ∧ f i = some d := by
  intro l
  induction l with
  | nil =>
    intro ds h
    simp only [List.mapM_nil] at h
    cases h
    exact ⟨rfl, fun k i hi => by simp at hi⟩
  | cons a l ih =>
    intro ds h
    rw [List.mapM_cons] at h
    rcases ha : f a with _ | d
    · rw [ha] at h; simp at h
    · rw [ha] at h
      rcases hl : l.mapM f with _ | ds'
      · rw [hl] at h; simp at h
      · rw [hl] at h
        simp at h
        subst h
        obtain ⟨h1, h2⟩ := ih ds' hl
        refine ⟨by simp [h1], fun k i hi => ?_⟩
        cases k with
        | zero =>
          simp at hi
          subst hi
          exact ⟨d, rfl, ha⟩
        | succ k =>
          simp at hi
          simpa using h2 k i hi

theorem le_sum : ∀ (l : List Nat) (x : Nat), x ∈ l → x ≤ l.sum := by
  intro l
  induction l with
  | nil => intro x hx; simp at hx
  | cons a l ih =>
    intro x hx
    rw [List.sum_cons]
    rcases List.mem_cons.mp hx with rfl | hx
    · omega
    · have := ih x hx; omega

/-- The descriptors of the children. -/
theorem children {be : Backend} {ch : Bool} {n : Nat} {child : Nat → Tree} {D : Desc} (h : (Tree.node be ch n child).describe = some D) :
    ∃ (ds : List Desc) (R : Desc), ds.length = n ∧ (∀ i, i < n → ∃ d, ds[i]? = some d ∧ (child i).describe = some d) ∧ reduce ds = some R ∧
      parent be R = some D := by
  unfold Tree.describe at h
  rcases hm : (List.range n).mapM fun i => (child i).describe with _ | ds
  · rw [hm] at h; simp at h
  · rw [hm] at h
    obtain ⟨h1, h2⟩ := mapM_some _ _ _ hm
    rcases hr : reduce ds with _ | R
    · simp [hr] at h
    · simp [hr] at h
      exact ⟨ds, R, by simpa using h1, fun i hi => h2 i i (by rw [List.getElem?_range hi]), hr, h⟩

theorem fold_siblings : ∀ (ds : List Desc) (a : Desc),
    ((ds ≠ [] → (ds.foldl siblings a).depth = 1 ∧ (ds.foldl siblings a).size = (ds.foldl siblings a).blockSize)) ∧
    ((ds.foldl siblings a).noBlocking = true → a.blockSize = a.size → a.noBlocking = true ∧ (ds.foldl siblings a).size = a.size ∧
      (ds.foldl siblings a).blockSize = a.size ∧ ∀ b ∈ ds, b.size = a.size) ∧
    ((ds.foldl siblings a).cascaded = true → a.cascaded = true ∧ ∀ b ∈ ds, b.cascaded = true) ∧
    ((ds.foldl siblings a).valid = true → a.valid = true ∧ ∀ b ∈ ds, b.valid = true) ∧
    (ds.foldl siblings a).cumulative = a.cumulative + (ds.map (·.cumulative)).sum := by
  intro ds
  induction ds with
  | nil => intro a; simp; exact fun h h' => ⟨h, h'⟩
  | cons b ds ih =>
    intro a
    obtain ⟨h1, h2, h3, h4, h5⟩ := ih (siblings a b)
    rw [List.foldl_cons]
    refine ⟨fun _ => ?_, fun hn ha => ?_, fun hc => ?_, fun hv => ?_, ?_⟩
    · by_cases he : ds = []
      · subst he; exact ⟨rfl, rfl⟩
      · exact h1 he
    · obtain ⟨g1, g2, g3, g4⟩ := h2 hn rfl
      have e : a.noBlocking = true ∧ a.depth = b.depth ∧ a.size = b.size := by simpa [siblings] using g1
      have es : (siblings a b).size = a.size := by
        have : (siblings a b).size = if (siblings a b).noBlocking then a.blockSize else 1 := rfl
        rw [this, g1]; simpa using ha
      refine ⟨e.1, g2.trans es, g3.trans es, fun c hc => ?_⟩
      rcases List.mem_cons.mp hc with rfl | hc
      · exact e.2.2.symm
      · exact (g4 c hc).trans es
    · obtain ⟨g1, g2⟩ := h3 hc
      have e : a.cascaded = true ∧ b.cascaded = true := by simpa [siblings] using g1
      exact ⟨e.1, by simpa using ⟨e.2, g2⟩⟩
    · obtain ⟨g1, g2⟩ := h4 hv
      have e : a.valid = true ∧ b.valid = true := by simpa [siblings] using g1
      exact ⟨e.1, by simpa using ⟨e.2, g2⟩⟩
    · rw [h5, List.map_cons, List.sum_cons, ← Nat.add_assoc]; rfl

/-- What the reduction over the children gives. -/
theorem reduce_spec {ds : List Desc} {R : Desc} (h : reduce ds = some R) (hb : ∀ d ∈ ds, d.blockSize = d.size ∧ 1 ≤ d.depth) :
    R.blockSize = R.size ∧ 1 ≤ R.depth ∧ 1 ≤ ds.length ∧ (2 ≤ ds.length → R.depth = 1) ∧ (ds.length = 1 → ∀ d ∈ ds, R = d) ∧
    (R.noBlocking = true → ∀ d ∈ ds, d.size = R.size) ∧ (R.cascaded = true → ∀ d ∈ ds, d.cascaded = true) ∧
    (R.valid = true → ∀ d ∈ ds, d.valid = true) ∧ R.cumulative = (ds.map (·.cumulative)).sum := by
  match ds, h with
  | d :: ds, h =>
    unfold reduce at h
    have h := (Option.some.inj h).symm
    subst h
    obtain ⟨h1, h2, h3, h4, h5⟩ := fold_siblings ds d
    have hd := hb d (by simp)
    refine ⟨?_, ?_, by simp, fun hl => ?_, fun hl e he => ?_, fun hn e he => ?_, fun hc => ?_, fun hv => ?_, ?_⟩
    · by_cases he : ds = []
      · subst he; exact hd.1
      · exact (h1 he).2.symm
    · by_cases he : ds = []
      · subst he; exact hd.2
      · exact (h1 he).1.symm ▸ le_refl _
    · exact (h1 (by rintro rfl; simp at hl)).1
    · have : ds = [] := by simpa using hl
      subst this
      simp at he
      exact he.symm
    · obtain ⟨g1, g2, g3, g4⟩ := h2 hn hd.1
      rcases List.mem_cons.mp he with rfl | he
      · exact g2.symm
      · exact (g4 e he).trans g2.symm
    · simpa using h3 hc
    · simpa using h4 hv
    · simpa using h5

/-- What holds for every accepted tree. -/
structure Inv (t : Tree) (D : Desc) : Prop where
  block : D.blockSize = D.size
  depth : 1 ≤ D.depth
  cum : D.cumulative = t.perEntity
  val : D.valid = true → 0 < D.cumulative
  casc : D.cascaded = true → D.depth = 1 ∧ D.size = 1 ∧ ∀ p, t.IsLeaf p → t.bcrsOn p = 0 ∧ t.fixedOn p = 0
  le : ∀ p, t.IsLeaf p → D.depth ≤ 1 + t.bcrsOn p
  fixed : ∀ p, t.IsLeaf p → t.fixedOn p ≤ 1 ∧ (D.size ≠ 1 → t.fixedOn p = 1) ∧ (t.fixedOn p = 1 → t.fixedBlock p = some D.size) ∧
    (t.fixedOn p = 0 → t.fixedBlock p = none)
  pos : 1 ≤ D.size

theorem parent_some {be : Backend} {R D : Desc} (h : parent be R = some D) :
    be.blockSize = 0 ∧ D.cumulative = R.cumulative ∧ D.valid = R.valid ∧
    D.cascaded = (R.cascaded && decide (be.blocking = .none)) ∧
    ((be.blocking = .none ∧ R.noBlocking = true ∧ D.blockSize = R.blockSize ∧ D.depth = R.depth ∧ D.size = R.size) ∨
     (be.blocking = .bcrs ∧ R.noBlocking = true ∧ D.blockSize = R.blockSize ∧ D.depth = R.depth + 1 ∧ D.size = R.size) ∨
     (be.blocking = .fixed ∧ R.cascaded = true ∧ R.valid = true ∧ D.blockSize = R.cumulative ∧ D.depth = 1 ∧ D.size = R.cumulative)) := by
  unfold parent at h
  simp only at h
  split at h
  · rename_i hc
    obtain ⟨c1, c2, c3⟩ := hc
    rcases be with ⟨bl, bs⟩
    cases bl
    · simp only at h
      split at h
      · rename_i hn
        cases h
        exact ⟨c1, rfl, rfl, rfl, Or.inl ⟨rfl, hn, by simp, rfl, rfl⟩⟩
      · cases h
    · simp only at h
      split at h
      · rename_i hn
        cases h
        exact ⟨c1, rfl, rfl, rfl, Or.inr (Or.inl ⟨rfl, hn, by simp, rfl, rfl⟩)⟩
      · cases h
    · simp only at h
      cases h
      exact ⟨c1, rfl, rfl, rfl, Or.inr (Or.inr ⟨rfl, by simpa using c2, by simpa using c3, by simp, rfl, by simp⟩)⟩
  · cases h

theorem inv : ∀ (t : Tree) (D : Desc), t.describe = some D → Inv t D := by
  intro t
  induction t with
  | leaf be ch det =>
    intro D h
    unfold Tree.describe leafDesc at h
    simp only [Option.ite_none_right_eq_some] at h
    obtain ⟨hc, h⟩ := h
    · obtain ⟨c1, c2, c3⟩ := hc
      have h := (Option.some.inj h).symm
      subst h
      have hp : (if 0 < be.blockSize then be.blockSize else det) = (Tree.leaf be ch det).perEntity := by
        unfold Tree.perEntity
        by_cases hb : be.blockSize = 0
        · simp [hb]
        · simp [hb, Nat.pos_of_ne_zero hb]
      refine ⟨rfl, le_refl _, hp, by simp, fun hca => ?_, fun p _ => by simp, fun p _ => ?_, ?_⟩
      · have hb : be.blocking = .none := by simpa using hca
        simp [hb, Tree.bcrsOn, Tree.fixedOn]
      · by_cases hf : be.blocking = .fixed
        · simp only [Tree.fixedOn, Tree.fixedBlock, if_pos hf]
          rw [hp]
          simp
        · simp [Tree.fixedOn, Tree.fixedBlock, hf]
      · by_cases hf : be.blocking = .fixed
        · simp only [if_pos hf]
          have : decide (0 < if 0 < be.blockSize then be.blockSize else det) = true := by
            rcases c3 with c3 | c3
            · exact absurd hf c3
            · exact c3
          exact of_decide_eq_true this
        · simp [hf]
  | node be ch n child ih =>
    intro D h
    obtain ⟨ds, R, hlen, hds, hr, hp⟩ := children h
    have hinv : ∀ i, i < n → ∃ d, ds[i]? = some d ∧ Inv (child i) d := by
      intro i hi
      obtain ⟨d, h1, h2⟩ := hds i hi
      exact ⟨d, h1, ih i d h2⟩
    have hmem : ∀ d ∈ ds, ∃ i, i < n ∧ ds[i]? = some d := by
      intro d hd
      obtain ⟨i, hi, rfl⟩ := List.getElem_of_mem hd
      exact ⟨i, by omega, by simp [hi]⟩
    have hb : ∀ d ∈ ds, d.blockSize = d.size ∧ 1 ≤ d.depth := by
      intro d hd
      obtain ⟨i, hi, hd⟩ := hmem d hd
      obtain ⟨d', h1, h2⟩ := hinv i hi
      rw [hd] at h1
      cases h1
      exact ⟨h2.block, h2.depth⟩
    obtain ⟨r1, r2, r3, r4, r5, r6, r7, r8, r9⟩ := reduce_spec hr hb
    obtain ⟨q1, q2, q3, q4, q5⟩ := parent_some hp
    have hcum : R.cumulative = (Tree.node be ch n child).perEntity := by
      rw [r9]
      unfold Tree.perEntity
      congr 1
      apply List.ext_getElem?
      intro k
      by_cases hk : k < n
      · obtain ⟨d, h1, h2⟩ := hinv k hk
        rw [List.getElem?_map, h1, List.getElem?_map, List.getElem?_range hk]
        simp [h2.cum]
      · rw [List.getElem?_eq_none (by simp; omega), List.getElem?_eq_none (by simp; omega)]
    -- every child, against the combined descriptor
    have hch : ∀ c, c < n → ∀ p, (child c).IsLeaf p → R.depth ≤ 1 + (child c).bcrsOn p := by
      intro c hc p hl
      obtain ⟨d, h1, h2⟩ := hinv c hc
      by_cases hn : 2 ≤ n
      · rw [r4 (by omega)]; omega
      · have : R = d := r5 (by omega) d (List.mem_of_getElem? h1)
        rw [this]
        exact h2.le p hl
    have hval : R.valid = true → 0 < R.cumulative := by
      intro hv
      have hn : 0 < ds.length := r3
      obtain ⟨d, h1, h2⟩ := hinv 0 (by omega)
      have := h2.val (r8 hv d (List.mem_of_getElem? h1))
      rw [r9]
      have hm : d.cumulative ∈ ds.map (·.cumulative) := List.mem_map_of_mem (List.mem_of_getElem? h1)
      have := le_sum _ _ hm
      omega
    have hcasc : R.cascaded = true → R.depth = 1 ∧ ∀ c, c < n → ∀ p, (child c).IsLeaf p → (child c).bcrsOn p = 0 ∧ (child c).fixedOn p = 0 ∧
        ∀ d, ds[c]? = some d → d.size = 1 := by
      intro hc
      refine ⟨?_, fun c hcn p hl => ?_⟩
      · by_cases hn : 2 ≤ n
        · exact r4 (by omega)
        · have h0 : 0 < n := by omega
          obtain ⟨d, h1, h2⟩ := hinv 0 h0
          have e : R = d := r5 (by omega) d (List.mem_of_getElem? h1)
          rw [e] at hc ⊢
          exact (h2.casc hc).1
      · obtain ⟨d, h1, h2⟩ := hinv c hcn
        have := h2.casc (r7 hc d (List.mem_of_getElem? h1))
        refine ⟨(this.2.2 p hl).1, (this.2.2 p hl).2, fun d' hd' => ?_⟩
        rw [h1] at hd'
        cases hd'
        exact this.2.1
    have hsize1 : R.noBlocking = true → ∀ c, c < n → ∃ d, ds[c]? = some d ∧ Inv (child c) d ∧ d.size = R.size := by
      intro hn c hc
      obtain ⟨d, h1, h2⟩ := hinv c hc
      exact ⟨d, h1, h2, r6 hn d (List.mem_of_getElem? h1)⟩
    refine ⟨?_, ?_, q2.trans hcum, ?_, ?_, ?_, ?_, ?_⟩
    · rcases q5 with q | q | q
      · rw [q.2.2.1, q.2.2.2.2, r1]
      · rw [q.2.2.1, q.2.2.2.2, r1]
      · rw [q.2.2.2.1, q.2.2.2.2.2]
    · rcases q5 with q | q | q
      · rw [q.2.2.2.1]; exact r2
      · rw [q.2.2.2.1]; omega
      · rw [q.2.2.2.2.1]
    · rw [q2, q3]; exact hval
    · intro hc
      rw [q4] at hc
      obtain ⟨hc, hb⟩ := Bool.and_eq_true_iff.mp hc
      have hb : be.blocking = .none := by simpa using hb
      obtain ⟨k1, k2⟩ := hcasc hc
      rcases q5 with q | q | q
      · refine ⟨q.2.2.2.1.trans k1, ?_, fun p hl => ?_⟩
        · rw [q.2.2.2.2]
          obtain ⟨d, h1, h2, h3⟩ := hsize1 q.2.1 0 (by omega)
          have := (h2.casc (r7 hc d (List.mem_of_getElem? h1))).2.1
          omega
        · match p, hl with
          | c :: p, hl =>
            have := k2 c hl.1 p hl.2
            simp [Tree.bcrsOn, Tree.fixedOn, hb, this.1, this.2.1]
      · rw [hb] at q; exact absurd q.1 (by simp)
      · rw [hb] at q; exact absurd q.1 (by simp)
    · intro p hl
      match p, hl with
      | c :: p, hl =>
        have := hch c hl.1 p hl.2
        rcases q5 with q | q | q
        · rw [q.2.2.2.1]; unfold Tree.bcrsOn; omega
        · rw [q.2.2.2.1]; unfold Tree.bcrsOn; rw [if_pos q.1]; omega
        · rw [q.2.2.2.2.1]; omega
    · intro p hl
      match p, hl with
      | c :: p, hl =>
        rcases q5 with q | q | q
        · obtain ⟨d, h1, h2, h3⟩ := hsize1 q.2.1 c hl.1
          have := h2.fixed p hl.2
          simp only [Tree.fixedOn, Tree.fixedBlock, q.1, reduceCtorEq, if_false, Nat.add_zero]
          rw [q.2.2.2.2, ← h3]
          exact this
        · obtain ⟨d, h1, h2, h3⟩ := hsize1 q.2.1 c hl.1
          have := h2.fixed p hl.2
          simp only [Tree.fixedOn, Tree.fixedBlock, q.1, reduceCtorEq, if_false, Nat.add_zero]
          rw [q.2.2.2.2, ← h3]
          exact this
        · obtain ⟨_, k2⟩ := hcasc q.2.1
          have := k2 c hl.1 p hl.2
          simp only [Tree.fixedOn, Tree.fixedBlock, if_pos q.1, this.2.1]
          refine ⟨by simp, fun _ => by simp, fun _ => ?_, fun h => absurd h (by simp)⟩
          rw [q.2.2.2.2.2, hcum]
    · rcases q5 with q | q | q
      · obtain ⟨d, h1, h2, h3⟩ := hsize1 q.2.1 0 (by omega)
        rw [q.2.2.2.2, ← h3]; exact h2.pos
      · obtain ⟨d, h1, h2, h3⟩ := hsize1 q.2.1 0 (by omega)
        rw [q.2.2.2.2, ← h3]; exact h2.pos
      · rw [q.2.2.2.2.2]; exact hval q.2.2.1

/-- The number of nested block vectors is right exactly for trees with a single nesting. -/
theorem depth_iff : ∀ (t : Tree) (D : Desc), t.describe = some D → ((∀ p, t.IsLeaf p → D.depth = 1 + t.bcrsOn p) ↔ t.SingleNesting) := by
  intro t
  induction t with
  | leaf be ch det =>
    intro D h
    refine ⟨fun _ => trivial, fun _ p _ => ?_⟩
    unfold Tree.describe leafDesc at h
    simp only [Option.ite_none_right_eq_some] at h
    obtain ⟨hc, h⟩ := h
    have h := (Option.some.inj h).symm
    subst h
    simp [Tree.bcrsOn, hc.1]
  | node be ch n child ih =>
    intro D h
    obtain ⟨ds, R, hlen, hds, hr, hp⟩ := children h
    have hmem : ∀ d ∈ ds, ∃ i, i < n ∧ ds[i]? = some d := by
      intro d hd
      obtain ⟨i, hi, rfl⟩ := List.getElem_of_mem hd
      exact ⟨i, by omega, by simp [hi]⟩
    have hb : ∀ d ∈ ds, d.blockSize = d.size ∧ 1 ≤ d.depth := by
      intro d hd
      obtain ⟨i, hi, hd⟩ := hmem d hd
      obtain ⟨d', h1, h2⟩ := hds i hi
      rw [hd] at h1
      cases h1
      exact ⟨(inv _ _ h2).block, (inv _ _ h2).depth⟩
    obtain ⟨r1, r2, r3, r4, r5, r6, r7, r8, r9⟩ := reduce_spec hr hb
    obtain ⟨q1, q2, q3, q4, q5⟩ := parent_some hp
    -- the depth of the parent
    have hD : (∀ p, (Tree.node be ch n child).IsLeaf p → D.depth = 1 + (Tree.node be ch n child).bcrsOn p) ↔
        ∀ c, c < n → ∀ p, (child c).IsLeaf p → R.depth = 1 + (child c).bcrsOn p := by
      constructor
      · intro hd c hc p hl
        have := hd (c :: p) ⟨hc, hl⟩
        unfold Tree.bcrsOn at this
        rcases q5 with q | q | q
        · rw [q.1, q.2.2.2.1] at this; simpa using this
        · rw [q.1, q.2.2.2.1] at this; simp only [if_true] at this; omega
        · obtain ⟨d, h1, h2⟩ := hds c hc
          have := ((inv _ _ h2).casc (r7 q.2.1 d (List.mem_of_getElem? h1)))
          rw [(this.2.2 p hl).1]
          by_cases hn : 2 ≤ n
          · exact r4 (by omega)
          · rw [r5 (by omega) d (List.mem_of_getElem? h1)]; exact this.1
      · intro hd p hl
        match p, hl with
        | c :: p, hl =>
          have := hd c hl.1 p hl.2
          unfold Tree.bcrsOn
          rcases q5 with q | q | q
          · rw [q.1, q.2.2.2.1]; simpa using this
          · rw [q.1, q.2.2.2.1]; simp only [if_true]; omega
          · obtain ⟨d, h1, h2⟩ := hds c hl.1
            have := ((inv _ _ h2).casc (r7 q.2.1 d (List.mem_of_getElem? h1)))
            rw [(this.2.2 p hl.2).1, q.1, q.2.2.2.2.1]
            simp
    rw [hD]
    unfold Tree.SingleNesting
    constructor
    · intro hd
      refine ⟨fun i hi => ?_, fun hn i hi p hl => ?_⟩
      · obtain ⟨d, h1, h2⟩ := hds i hi
        rw [← ih i d h2]
        intro p hl
        have e := hd i hi p hl
        by_cases hn : 2 ≤ n
        · rw [r4 (by omega)] at e
          have h3 := (inv _ _ h2).le p hl
          have h4 := (inv _ _ h2).depth
          omega
        · rw [← r5 (by omega) d (List.mem_of_getElem? h1)]; exact e
      · have e := hd i hi p hl
        rw [r4 (by omega)] at e
        omega
    · rintro ⟨h1, h2⟩ c hc p hl
      by_cases hn : 2 ≤ n
      · rw [r4 (by omega), h2 hn c hc p hl]
      · obtain ⟨d, g1, g2⟩ := hds c hc
        rw [r5 (by omega) d (List.mem_of_getElem? g1)]
        exact (ih c d g2).mpr (h1 c hc) p hl

theorem entries_eq (be : Backend) (l ch : Bool) (h : ch = true → be.blocking ≠ .none) :
    entries be l ch = if be.blocking = .none ∨ (l = true ∧ ch = false ∧ be.blocking = .fixed ∧ be.blockSize = 1) then 0 else 1 := by
  rcases be with ⟨bl, bs⟩
  cases ch
  · cases bl
    · simp [entries, blocked]
    · simp [entries, blocked]
    · cases l
      · simp [entries, blocked]
      · by_cases h1 : bs = 1
        · simp [entries, blocked, h1]
        · have : 1 < bs ∨ bs = 0 := by omega
          simp [entries, blocked, h1, this]
  · have := h rfl
    simp only at this
    simp [entries, blocked, this]

/-- The length of the container indices of an accepted tree. -/
theorem length_eq : ∀ (t : Tree) (D : Desc), t.describe = some D → t.ChunksBlocked → ∀ p, t.IsLeaf p →
    ∃ e, e ≤ t.fixedOn p ∧ t.indexLength p = 1 + t.bcrsOn p + e ∧ (D.size ≠ 1 → t.fixedOn p = 1 → e = 1) := by
  intro t
  induction t with
  | leaf be ch det =>
    intro D h hc p hl
    have hi := inv _ _ h
    unfold Tree.indexLength
    rw [entries_eq be true ch hc]
    have hbs : be.blockSize = 1 → be.blocking = .fixed → D.size = 1 := by
      intro h1 h2
      unfold Tree.describe leafDesc at h
      simp only [Option.ite_none_right_eq_some] at h
      have h := (Option.some.inj h.2).symm
      subst h
      simp [h1, h2]
    have hnb : be.blocking ≠ .bcrs := by
      unfold Tree.describe leafDesc at h
      simp only [Option.ite_none_right_eq_some] at h
      exact h.1.1
    rcases be with ⟨bl, bs⟩
    cases bl
    · exact ⟨0, by simp [Tree.fixedOn, Tree.bcrsOn]⟩
    · exact absurd rfl hnb
    · simp only [Tree.fixedOn, Tree.bcrsOn]
      by_cases h1 : bs = 1 ∧ ch = false
      · have := hbs h1.1 rfl
        exact ⟨0, by simp [h1.1, h1.2, this]⟩
      · refine ⟨1, by simp, ?_, fun _ _ => rfl⟩
        have : ¬ (ch = false ∧ bs = 1) := fun h' => h1 ⟨h'.2, h'.1⟩
        simp only [true_and]
        rw [if_neg (by rintro (h' | h'); · cases h'
                       · exact this h')]
        simp
  | node be ch n child ih =>
    intro D h hc p hl
    obtain ⟨ds, R, hlen, hds, hr, hp⟩ := children h
    obtain ⟨q1, q2, q3, q4, q5⟩ := parent_some hp
    have hmem : ∀ d ∈ ds, ∃ i, i < n ∧ ds[i]? = some d := by
      intro d hd
      obtain ⟨i, hi, rfl⟩ := List.getElem_of_mem hd
      exact ⟨i, by omega, by simp [hi]⟩
    have hb : ∀ d ∈ ds, d.blockSize = d.size ∧ 1 ≤ d.depth := by
      intro d hd
      obtain ⟨i, hi, hd⟩ := hmem d hd
      obtain ⟨d', h1, h2⟩ := hds i hi
      rw [hd] at h1
      cases h1
      exact ⟨(inv _ _ h2).block, (inv _ _ h2).depth⟩
    obtain ⟨r1, r2, r3, r4, r5, r6, r7, r8, r9⟩ := reduce_spec hr hb
    match p, hl with
    | c :: p, hl =>
      obtain ⟨d, h1, h2⟩ := hds c hl.1
      obtain ⟨e, e1, e2, e3⟩ := ih c d h2 (hc.2 c hl.1) p hl.2
      have hm := List.mem_of_getElem? h1
      unfold Tree.indexLength Tree.bcrsOn Tree.fixedOn
      rw [entries_eq be false ch hc.1, e2]
      rcases q5 with q | q | q
      · refine ⟨e, ?_, ?_, fun g1 g2 => e3 ?_ ?_⟩
        · simp [q.1]; exact e1
        · simp [q.1]
        · rw [r6 q.2.1 d hm, ← q.2.2.2.2]; exact g1
        · simpa [q.1] using g2
      · refine ⟨e, ?_, ?_, fun g1 g2 => e3 ?_ ?_⟩
        · simp [q.1]; exact e1
        · simp [q.1]; omega
        · rw [r6 q.2.1 d hm, ← q.2.2.2.2]; exact g1
        · simpa [q.1] using g2
      · have := ((inv _ _ h2).casc (r7 q.2.1 d hm)).2.2 p hl.2
        refine ⟨e + 1, ?_, ?_, fun _ _ => ?_⟩
        · simp [q.1]; exact e1
        · simp [q.1]; omega
        · omega

theorem le_foldl_max : ∀ (l : List Nat) (a : Nat), a ≤ l.foldl max a ∧ ∀ x ∈ l, x ≤ l.foldl max a := by
  intro l
  induction l with
  | nil => intro a; simp
  | cons b l ih =>
    intro a
    obtain ⟨h1, h2⟩ := ih (max a b)
    rw [List.foldl_cons]
    refine ⟨by omega, fun x hx => ?_⟩
    rcases List.mem_cons.mp hx with rfl | hx
    · omega
    · exact h2 x hx

theorem length_le_capacity : ∀ (t : Tree), t.ChunksBlocked → ∀ p, t.IsLeaf p → t.indexLength p ≤ t.maxDepth + 1 := by
  intro t
  induction t with
  | leaf be ch det =>
    intro hc p hl
    unfold Tree.indexLength Tree.maxDepth maxBlockingDepth
    rw [entries_eq be true ch hc]
    by_cases hn : be.blocking = .none
    · simp [hn]
    · simp only [hn, ne_eq, not_false_eq_true, if_true]
      split <;> omega
  | node be ch n child ih =>
    intro hc p hl
    match p, hl with
    | c :: p, hl =>
      have h1 := ih c (hc.2 c hl.1) p hl.2
      unfold Tree.indexLength Tree.maxDepth maxBlockingDepth
      rw [entries_eq be false ch hc.1]
      have h2 := (le_foldl_max ((List.range n).map fun i => (child i).maxDepth) 0).2 (child c).maxDepth
        (List.mem_map.mpr ⟨c, List.mem_range.mpr hl.1, rfl⟩)
      by_cases hn : be.blocking = .none
      · simp [hn]; omega
      · simp [hn]; omega

section
open Orderings

theorem bind_ok {ε α β : Type} {x : Except ε α} {f : α → Except ε β} {b : β} (h : x.bind f = .ok b) : ∃ a, x = .ok a ∧ f a = .ok b := by
  cases x with
  | error e => simp [Except.bind] at h
  | ok a => exact ⟨a, rfl, h⟩

theorem entries_chunked (be : Backend) (l : Bool) : entries be l true = 1 := by simp [entries, blocked]
theorem entries_none (l : Bool) : entries ⟨.none, 0⟩ l false = 0 := by simp [entries, blocked]
theorem entries_plain (be : Backend) (l : Bool) : entries be l false = if blocked be l false then 1 else 0 := by simp [entries]

theorem ordered_length : ∀ (o : OrdTree) (t : Tree), Ordered o t → ∀ path d ci, o.mapIndex path d = .ok ci →
    t.IsLeaf path ∧ ci.length = t.indexLength path := by
  intro o
  induction o with
  | leaf blocks table =>
    intro t ho path d ci h
    match t, ho with
    | .leaf be false det, ho =>
      match path with
      | [] =>
        unfold OrdTree.mapIndex at h
        rcases hd : table[d]? with _ | c
        · rw [hd] at h; cases h
        · rw [hd] at h
          cases h
          refine ⟨rfl, ?_⟩
          rw [ho ci (List.mem_of_getElem? hd)]
          unfold Tree.indexLength
          rw [entries_plain]
          split <;> rfl
      | _ :: _ => cases h
  | lex b n child ih =>
    intro t ho path d ci h
    match t, ho with
    | .node be false m c, ho =>
      obtain ⟨rfl, rfl, ho⟩ := ho
      match path with
      | [] => cases h
      | k :: path =>
        unfold OrdTree.mapIndex at h
        obtain ⟨inf, _, h⟩ := bind_ok h
        split at h
        · cases h
        · rename_i hk
          obtain ⟨cc, h1, h⟩ := bind_ok h
          obtain ⟨l1, l2⟩ := ih k _ (ho k (by omega)) path d cc h1
          refine ⟨⟨by omega, l1⟩, ?_⟩
          unfold Tree.indexLength
          rw [entries_plain, ← l2]
          split at h
          · cases h
          · split at h
            · rename_i hb
              cases h
              simp [hb]
            · rename_i hb
              obtain ⟨off, _, h⟩ := bind_ok h
              cases h
              simp [hb]
  | inter b sizes n child ih =>
    intro t ho path d ci h
    match t, ho with
    | .node be false m c, ho =>
      obtain ⟨rfl, rfl, ho⟩ := ho
      match path with
      | [] => cases h
      | k :: path =>
        unfold OrdTree.mapIndex at h
        obtain ⟨inf, _, h⟩ := bind_ok h
        split at h
        · cases h
        · rename_i hk
          obtain ⟨cc, h1, h⟩ := bind_ok h
          obtain ⟨l1, l2⟩ := ih k _ (ho k (by omega)) path d cc h1
          refine ⟨⟨by omega, l1⟩, ?_⟩
          unfold Tree.indexLength
          rw [entries_plain, ← l2]
          split at h
          · cases h
          · obtain ⟨x1, _, h⟩ := bind_ok h
            obtain ⟨x2, _, h⟩ := bind_ok h
            dsimp only at h
            split at h
            · cases h
            · split at h
              · rename_i hb
                cases h
                simp [hb]
              · rename_i hb
                cases h
                simp [hb]
  | chunked bs o ih =>
    intro t ho path d ci h
    have key : ∀ t', Ordered o t' → t'.IsLeaf path ∧ ci.length = t'.indexLength path + 1 := by
      intro t' ho'
      unfold OrdTree.mapIndex at h
      obtain ⟨inf, _, h⟩ := bind_ok h
      obtain ⟨cc, h1, h⟩ := bind_ok h
      obtain ⟨l1, l2⟩ := ih t' ho' path d cc h1
      refine ⟨l1, ?_⟩
      rw [← l2]
      split at h
      · cases h
      · cases h
        simp
    match t, ho with
    | .leaf be true det, ho =>
      obtain ⟨k1, k2⟩ := key _ ho
      refine ⟨k1, ?_⟩
      rw [k2]
      unfold Tree.indexLength
      rw [entries_none, entries_chunked]
    | .node be true m c, ho =>
      obtain ⟨k1, k2⟩ := key _ ho
      match path with
      | [] => exact absurd k1 (by simp [Tree.IsLeaf])
      | k :: path =>
        refine ⟨k1, ?_⟩
        rw [k2]
        unfold Tree.indexLength
        rw [entries_none, entries_chunked]
  | permuted before after o ih =>
    intro t ho path d ci h
    unfold OrdTree.mapIndex at h
    obtain ⟨inf, _, h⟩ := bind_ok h
    obtain ⟨cc, h1, h⟩ := bind_ok h
    have hl := ih t (by simpa [Ordered] using ho) path d cc h1
    split at h
    · cases h
    · obtain ⟨b, _, h⟩ := bind_ok h
      cases h
      exact hl

end

section
open GridViewOrdering

theorem addBack_length {o : Nat} {ci ci' : List Nat} (h : addBack o ci = some ci') : ci'.length = ci.length := by
  cases ci with
  | nil => cases h
  | cons a l => cases h; rfl

/-- Entries of the container index inside an entity. -/
theorem mapLocal_length (m : Mesh) : ∀ (s : Space) (t : Tree), EntityWise s t → ∀ ty e p ci, (s.localOrdering m).mapLocal ty e p = some ci →
    ∃ q i, p = q ++ [i] ∧ t.IsLeaf q ∧ ci.length = t.indexLength q := by
  intro s
  induction s with
  | leaf fem cells =>
    intro t ho ty e p ci h
    match t, ho with
    | .leaf be false det, ho =>
      match p with
      | [i] =>
        cases h
        refine ⟨[], i, rfl, rfl, ?_⟩
        unfold Tree.indexLength
        rw [entries_plain, ho]
        rfl
      | [] => cases h
      | _ :: _ :: _ => cases h
  | node b n child ih =>
    intro t ho ty e p ci h
    match t, ho with
    | .node be false k c, ho =>
      obtain ⟨rfl, rfl, ho⟩ := ho
      match p with
      | [] => cases h
      | j :: p =>
        have g : (if j < k then
            (((child j).localOrdering m).mapLocal ty e p).bind fun ci =>
              if blocked be false false then some (j :: ci)
              else if 0 < j then
                (nodeArrays m k fun c => (child c).localOrdering m).bind fun a =>
                  if a.fixed then a.gtDofOffsets[ty * k + j - 1]?.bind fun o => addBack o ci
                  else a.gtUsed[ty]?.bind fun u =>
                    if u then a.gtEntityOffsets[ty]?.bind fun off =>
                      a.entityDofOffsets[(off + e) * k + j - 1]?.bind fun o => addBack o ci
                    else none
              else some ci
          else none) = some ci := h
        by_cases hj : j < k
        · rw [if_pos hj] at g
          obtain ⟨cc, h1, h2⟩ := Option.bind_eq_some_iff.mp g
          clear h g
          obtain ⟨q, i, rfl, l1, l2⟩ := ih j _ (ho j hj) ty e p cc h1
          refine ⟨j :: q, i, rfl, ⟨hj, l1⟩, ?_⟩
          unfold Tree.indexLength
          rw [entries_plain, ← l2]
          by_cases hb : blocked be false false = true
          · rw [if_pos hb] at h2 ⊢
            cases h2
            rfl
          · rw [if_neg hb] at h2 ⊢
            by_cases h0 : 0 < j
            · rw [if_pos h0] at h2
              obtain ⟨a, _, h⟩ := Option.bind_eq_some_iff.mp h2
              split at h
              · obtain ⟨o, _, h⟩ := Option.bind_eq_some_iff.mp h
                rw [addBack_length h]; rfl
              · obtain ⟨u, _, h⟩ := Option.bind_eq_some_iff.mp h
                split at h
                · obtain ⟨off, _, h⟩ := Option.bind_eq_some_iff.mp h
                  obtain ⟨o, _, h⟩ := Option.bind_eq_some_iff.mp h
                  rw [addBack_length h]; rfl
                · cases h
            · rw [if_neg h0] at h2; cases h2; rfl
        · rw [if_neg hj] at g; cases g

theorem update_fields (m : Mesh) (s : Space) (g : GVO) (h : update m s = some g) :
    g.blocked = s.blocked ∧ g.loc = s.disableBlocking.localOrdering m := by
  unfold update at h
  dsimp only at h
  split at h
  · unfold updateFixed at h
    obtain ⟨x, _, rfl⟩ := Option.map_eq_some_iff.mp h
    exact ⟨rfl, rfl⟩
  · unfold updateVar at h
    obtain ⟨x, _, rfl⟩ := Option.map_eq_some_iff.mp h
    exact ⟨rfl, rfl⟩

theorem entitywise_length (m : Mesh) (s : Space) (t : Tree) (hs : EntityWise s t) (g : GVO) (hg : update m s = some g) (ty e : Nat) (p ci : List Nat)
    (h : g.mapIndex ty e p = some ci) : ∃ q i, p = q ++ [i] ∧ t.IsLeaf q ∧ ci.length = t.indexLength q := by
  obtain ⟨gb, gl⟩ := update_fields m s g hg
  unfold GVO.mapIndex at h
  obtain ⟨cc, h1, h⟩ := Option.bind_eq_some_iff.mp h
  have hlen : ci.length = cc.length + if s.blocked then 1 else 0 := by
    rw [← gb]
    split at h
    · rename_i hb
      rw [hb]
      split at h
      · obtain ⟨x, _, rfl⟩ := Option.map_eq_some_iff.mp h; rfl
      · obtain ⟨off, _, h⟩ := Option.bind_eq_some_iff.mp h
        obtain ⟨x, _, rfl⟩ := Option.map_eq_some_iff.mp h; rfl
    · rename_i hb
      simp only [hb]
      split at h
      · obtain ⟨off, _, h⟩ := Option.bind_eq_some_iff.mp h
        obtain ⟨o, _, h⟩ := Option.bind_eq_some_iff.mp h
        exact addBack_length h
      · obtain ⟨off, _, h⟩ := Option.bind_eq_some_iff.mp h
        obtain ⟨o, _, h⟩ := Option.bind_eq_some_iff.mp h
        exact addBack_length h
  rw [gl] at h1
  match s, t, hs with
  | .leaf fem cells, .leaf be false det, hs =>
    obtain ⟨q, i, k1, k2, k3⟩ := mapLocal_length m (.leaf fem cells) (.leaf be false det) hs ty e p cc h1
    exact ⟨q, i, k1, k2, by rw [hlen, k3]; rfl⟩
  | .node b n child, .node be false k c, hs =>
    obtain ⟨hb, rfl, hc⟩ := hs
    have hs' : EntityWise (Space.node b k child).disableBlocking (.node ⟨.none, 0⟩ false k c) := ⟨rfl, rfl, hc⟩
    obtain ⟨q, i, k1, k2, k3⟩ := mapLocal_length m _ _ hs' ty e p cc h1
    refine ⟨q, i, k1, ?_, ?_⟩
    · match q, k2 with
      | _ :: _, k2 => exact k2
    · match q, k2 with
      | j :: q, k2 =>
        rw [hlen, k3]
        unfold Tree.indexLength
        rw [entries_none, entries_plain, ← hb]
        rfl

end

end Verif.VectorType
