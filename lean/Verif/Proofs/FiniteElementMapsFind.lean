import Verif.Proofs.FiniteElementMaps
import Mathlib.Data.Fintype.Card
/-
Helper lemmas for the finite element maps: the choice of the element.
-/
namespace Verif.FEM
open Spec
open FE (setAt)

/-! ### Simplices -/

theorem pk2Variants_eq : pk2Variants = [[0, 1, 2], [0, 2, 1], [1, 0, 2], [1, 2, 0], [2, 0, 1], [2, 1, 0]] := by decide +kernel

theorem pk2Find_sorts (gt : GeometryType) (hg : gt.isSimplex = true) (n : Nat → Nat) (h01 : n 0 ≠ n 1) (h02 : n 0 ≠ n 2)
    (h12 : n 1 ≠ n 2) : ∃ p, pk2Find gt n = some p ∧ SortsLike 3 p n := by
  rw [pk2Find, hg, pk2Variants_eq]
  rcases Nat.lt_or_gt_of_ne h01 with a | a <;> rcases Nat.lt_or_gt_of_ne h02 with b | b <;>
    rcases Nat.lt_or_gt_of_ne h12 with c | c <;>
    first
    | omega
    | (simp only [a, b, c, if_true, Nat.not_lt_of_gt a, Nat.not_lt_of_gt b, Nat.not_lt_of_gt c, if_false, gt_iff_lt, Bool.not_true,
        Bool.false_eq_true]
       refine ⟨_, rfl, rfl, by decide, ?_⟩
       intro i hi j hj
       interval_cases i <;> interval_cases j <;> simp <;> omega)

theorem minIndex_eq (s : Nat → Nat) (i n t : Nat) (ht : t < n) (hi : i ≤ s t) (hmin : ∀ j < n, i ≤ s j → j ≠ t → s t < s j) :
    minIndex s i n = some t := by
  have key : ∀ p ≤ n, match (List.range p).foldl (fun (minIdx : Option Nat) j =>
      if (match minIdx with | Option.none => true | some l => decide (s j < s l)) && decide (s j ≥ i) then some j else minIdx)
      Option.none with
      | Option.none => ∀ j < p, s j < i
      | some l => l < p ∧ i ≤ s l ∧ (t < p → l = t) := by
    intro p
    induction p with
    | zero => intro _; simp
    | succ p ih =>
      intro hp
      have ih := ih (by omega)
      rw [List.range_succ, List.foldl_append]
      revert ih
      generalize (List.range p).foldl _ _ = r
      intro ih
      cases r with
      | none =>
        dsimp only at ih
        simp only [List.foldl_cons, List.foldl_nil, Bool.true_and, decide_eq_true_eq]
        by_cases h : s p ≥ i
        · rw [if_pos h]
          refine ⟨by omega, h, fun htp => ?_⟩
          by_contra hne
          have := ih t (by omega)
          omega
        · rw [if_neg h]
          intro j hj
          by_cases hjp : j = p
          · subst hjp; omega
          · exact ih j (by omega)
      | some l =>
        dsimp only at ih
        obtain ⟨h1, h2, h3⟩ := ih
        simp only [List.foldl_cons, List.foldl_nil, Bool.and_eq_true, decide_eq_true_eq]
        by_cases h : s p < s l ∧ s p ≥ i
        · rw [if_pos h]
          refine ⟨by omega, h.2, fun htp => ?_⟩
          by_contra hne
          have hl := h3 (by omega)
          subst hl
          have := hmin p (by omega) h.2 hne
          omega
        · rw [if_neg h]
          refine ⟨by omega, h2, fun htp => ?_⟩
          by_cases htp' : t = p
          · subst htp'
            have := hmin l (by omega) h2 (by omega)
            omega
          · exact h3 (by omega)
  have := key n le_rfl
  rw [minIndex]
  revert this
  generalize (List.range n).foldl _ _ = r
  intro this
  cases r with
  | none => exact absurd (this t ht) (by omega)
  | some l => rw [this.2.2 ht]

/-- The number of vertices with a smaller index. -/
def rank (n : Nat → Nat) (m j : Nat) : Nat := ((Finset.range m).filter fun l => n l < n j).card

theorem rank_lt (n : Nat → Nat) (m j : Nat) (hj : j < m) : rank n m j < m := by
  rw [rank]
  have : (Finset.range m).filter (fun l => n l < n j) ⊂ Finset.range m := by
    refine Finset.filter_ssubset.2 ⟨j, Finset.mem_range.2 hj, by omega⟩
  simpa using Finset.card_lt_card this

theorem rank_lt_rank (n : Nat → Nat) (m i j : Nat) (hi : i < m) (h : n i < n j) : rank n m i < rank n m j := by
  refine Finset.card_lt_card ?_
  refine Finset.ssubset_iff_subset_ne.2 ⟨?_, ?_⟩
  · intro l hl
    rw [Finset.mem_filter] at *
    exact ⟨hl.1, by omega⟩
  · intro he
    have : i ∈ (Finset.range m).filter fun l => n l < n j := Finset.mem_filter.2 ⟨Finset.mem_range.2 hi, h⟩
    rw [← he, Finset.mem_filter] at this
    omega

theorem rank_iff (n : Nat → Nat) (m i j : Nat) (hi : i < m) (hj : j < m) : rank n m i < rank n m j ↔ n i < n j := by
  refine ⟨fun h => ?_, rank_lt_rank n m i j hi⟩
  by_contra hn
  rcases Nat.eq_or_lt_of_le (Nat.le_of_not_lt hn) with he | hlt
  · rw [rank, rank, he] at h; omega
  · have := rank_lt_rank n m j i hj hlt
    omega

theorem rank_le (n : Nat → Nat) (m j : Nat) (hinj : ∀ i < m, ∀ j < m, n i = n j → i = j) : rank n m j ≤ n j := by
  have h : ((Finset.range m).filter fun l => n l < n j).image n ⊆ Finset.range (n j) := by
    intro x hx
    rw [Finset.mem_image] at hx
    obtain ⟨l, hl, rfl⟩ := hx
    rw [Finset.mem_filter] at hl
    exact Finset.mem_range.2 hl.2
  have := Finset.card_le_card h
  rwa [Finset.card_image_of_injOn, Finset.card_range] at this
  intro a ha b hb hab
  simp only [Finset.coe_filter, Finset.mem_range, Set.mem_ofPred_eq] at ha hb
  exact hinj a ha.1 b hb.1 hab

theorem rank_surj (n : Nat → Nat) (m i : Nat) (hi : i < m) (hinj : ∀ i < m, ∀ j < m, n i = n j → i = j) :
    ∃ t < m, rank n m t = i := by
  have h1 : Set.MapsTo (rank n m) (Finset.range m) (Finset.range m) := by
    intro j hj
    simp only [Finset.coe_range, Set.mem_Iio] at *
    exact rank_lt n m j hj
  have h2 : Set.InjOn (rank n m) (Finset.range m) := by
    intro a ha b hb hab
    simp only [Finset.coe_range, Set.mem_Iio] at ha hb
    apply hinj a ha b hb
    have := rank_iff n m a b ha hb
    have := rank_iff n m b a hb ha
    omega
  have h3 := Finset.surjOn_of_injOn_of_card_le _ h1 h2 le_rfl
  obtain ⟨t, ht, he⟩ := h3 (Finset.mem_coe.2 (Finset.mem_range.2 hi))
  exact ⟨t, Finset.mem_range.1 (Finset.mem_coe.1 ht), he⟩

theorem reduceIndices_eq (n : Nat → Nat) (m : Nat) (hinj : ∀ i < m, ∀ j < m, n i = n j → i = j) :
    ∃ r, reduceIndices n m = some r ∧ ∀ j < m, r j = rank n m j := by
  have key : ∀ p ≤ m, ∃ s : Nat → Nat, (List.range p).foldlM (fun s i => (minIndex s i m).map fun j => setAt s j i) n = some s ∧
      ∀ j < m, s j = if rank n m j < p then rank n m j else n j := by
    intro p
    induction p with
    | zero => intro _; exact ⟨n, rfl, fun j _ => by simp⟩
    | succ p ih =>
      intro hp
      obtain ⟨s, h1, h2⟩ := ih (by omega)
      obtain ⟨t, ht, hrt⟩ := rank_surj n m p (by omega) hinj
      have hst : s t = n t := by rw [h2 t ht, if_neg (by omega)]
      have hmin : minIndex s p m = some t := by
        apply minIndex_eq s p m t ht
        · rw [hst, ← hrt]; exact rank_le n m t hinj
        · intro j hj hpj hne
          rw [hst]
          rw [h2 j hj] at hpj ⊢
          split at hpj
          · omega
          · rename_i hr
            rw [if_neg hr]
            have hnt := hinj j hj t ht
            have hr' : rank n m t < rank n m j ∨ n j = n t := by
              by_contra hcon
              have h3 := rank_iff n m t j ht hj
              have h4 := rank_iff n m j t hj ht
              omega
            rcases hr' with hr' | hr'
            · exact (rank_iff n m t j ht hj).1 hr'
            · exact absurd (hnt hr') hne
      refine ⟨setAt s t p, ?_, ?_⟩
      · rw [List.range_succ, List.foldlM_append, h1]
        simp [hmin]
      · intro j hj
        by_cases hjt : j = t
        · subst hjt
          simp [setAt, hrt]
        · have hne : rank n m j ≠ p := by
            intro he
            apply hjt
            apply hinj j hj t ht
            have := rank_iff n m j t hj ht
            have := rank_iff n m t j ht hj
            omega
          simp only [setAt]
          rw [if_neg (by tauto), h2 j hj]
          split <;> rename_i h <;> [rw [if_pos (by omega)]; rw [if_neg (by omega)]]
  obtain ⟨s, h1, h2⟩ := key m le_rfl
  exact ⟨s, h1, fun j hj => by rw [h2 j hj, if_pos (rank_lt n m j hj)]⟩

theorem pk3Tables_fin : ∀ a b c d : Fin 4, (a ≠ b ∧ a ≠ c ∧ a ≠ d ∧ b ≠ c ∧ b ≠ d ∧ c ≠ d) →
    pk3Tables.1[pk3Tables.2 (a.val + (b.val <<< 2) + (c.val <<< 4) + (d.val <<< 6))]? = some [a.val, b.val, c.val, d.val] := by
  decide +kernel

theorem pk3Tables_eq (a : Nat) (ha : a < 4) (b : Nat) (hb : b < 4) (c : Nat) (hc : c < 4) (d : Nat) (hd : d < 4)
    (h1 : a ≠ b) (h2 : a ≠ c) (h3 : a ≠ d) (h4 : b ≠ c) (h5 : b ≠ d) (h6 : c ≠ d) :
    pk3Tables.1[pk3Tables.2 (a + (b <<< 2) + (c <<< 4) + (d <<< 6))]? = some [a, b, c, d] :=
  pk3Tables_fin ⟨a, ha⟩ ⟨b, hb⟩ ⟨c, hc⟩ ⟨d, hd⟩ ⟨by simpa using h1, by simpa using h2, by simpa using h3, by simpa using h4,
    by simpa using h5, by simpa using h6⟩

theorem pk3Find_sorts (gt : GeometryType) (hg : gt.isSimplex = true) (n : Nat → Nat)
    (hinj : ∀ i < 4, ∀ j < 4, n i = n j → i = j) : ∃ p, pk3Find gt n = some p ∧ SortsLike 4 p n := by
  obtain ⟨r, h1, h2⟩ := reduceIndices_eq n 4 hinj
  have hlt : ∀ j < 4, r j < 4 := fun j hj => by rw [h2 j hj]; exact rank_lt n 4 j hj
  have hiff : ∀ i < 4, ∀ j < 4, r i < r j ↔ n i < n j := fun i hi j hj => by
    rw [h2 i hi, h2 j hj]; exact rank_iff n 4 i j hi hj
  have hne : ∀ i < 4, ∀ j < 4, i ≠ j → r i ≠ r j := fun i hi j hj hij he => by
    have := hiff i hi j hj
    have := hiff j hj i hi
    exact hij (hinj i hi j hj (by omega))
  refine ⟨[r 0, r 1, r 2, r 3], ?_, rfl, ?_, ?_⟩
  · rw [pk3Find, hg, h1]
    exact pk3Tables_eq (r 0) (hlt 0 (by omega)) (r 1) (hlt 1 (by omega)) (r 2) (hlt 2 (by omega)) (r 3) (hlt 3 (by omega))
      (hne 0 (by omega) 1 (by omega) (by omega)) (hne 0 (by omega) 2 (by omega) (by omega)) (hne 0 (by omega) 3 (by omega) (by omega))
      (hne 1 (by omega) 2 (by omega) (by omega)) (hne 1 (by omega) 3 (by omega) (by omega)) (hne 2 (by omega) 3 (by omega) (by omega))
  · intro i hi
    have := hlt i hi
    interval_cases i <;> simpa using this
  · intro i hi j hj
    have := hiff i hi j hj
    interval_cases i <;> interval_cases j <;> simpa using this

/-! ### Faces and edges -/

theorem orBit_lt (x i : Nat) : orBit x i < 256 := Nat.mod_lt _ (by omega)

theorem orBit_testBit (x i f : Nat) (hi : i < 8) (hx : x < 256) : (orBit x i).testBit f = (x.testBit f || decide (f = i)) := by
  rw [orBit, show (256 : Nat) = 2 ^ 8 from rfl, Nat.testBit_mod_two_pow, Nat.testBit_or, Nat.testBit_two_pow]
  by_cases hf : f < 8
  · simp [hf, eq_comm]
  · have : x.testBit f = false := Nat.testBit_lt_two_pow (lt_of_lt_of_le hx (Nat.pow_le_pow_right (n := 2) (by omega) (show 8 ≤ f by omega)))
    simp [hf, this]
    omega


/-- Setting bits in one byte of an array. -/
theorem setBits {α : Type} (idx : Nat) (cond : α → Bool) (bit : α → Nat) (hb : ∀ t, cond t = true → bit t < 8) (l : List α)
    (orient : Nat → Nat) (ho : orient idx < 256) :
    let r := l.foldl (fun orient t => if cond t then setAt orient idx (orBit (orient idx) (bit t)) else orient) orient
    r idx < 256 ∧ (∀ j, j ≠ idx → r j = orient j) ∧
      ∀ f, (r idx).testBit f = ((orient idx).testBit f || l.any fun t => cond t && decide (f = bit t)) := by
  induction l generalizing orient with
  | nil => exact ⟨ho, fun _ _ => rfl, fun f => by simp⟩
  | cons a l ih =>
    rw [List.foldl_cons]
    by_cases h : cond a = true
    · rw [if_pos h]
      have hs : setAt orient idx (orBit (orient idx) (bit a)) idx = orBit (orient idx) (bit a) := by simp [setAt]
      obtain ⟨h1, h2, h3⟩ := ih (setAt orient idx (orBit (orient idx) (bit a))) (by rw [hs]; exact orBit_lt _ _)
      refine ⟨h1, fun j hj => ?_, fun f => ?_⟩
      · rw [h2 j hj]; simp [setAt, hj]
      · rw [h3 f, hs, orBit_testBit _ _ _ (hb a h) ho]
        simp [h, Bool.or_assoc]
    · rw [if_neg h]
      obtain ⟨h1, h2, h3⟩ := ih orient ho
      refine ⟨h1, h2, fun f => ?_⟩
      rw [h3 f]
      simp [h]

/-- A loop over cells that sets one entry for each of them. -/
theorem foldl_cells {α β : Type} (index : α → Nat) (body : (Nat → β) → α → Nat → β) (g : α → β)
    (hset : ∀ o c, body o c (index c) = g c) (hkeep : ∀ o c j, j ≠ index c → body o c j = o j)
    (cells : List α) (hnd : (cells.map index).Nodup) (o : Nat → β) (c : α) (hc : c ∈ cells) :
    cells.foldl body o (index c) = g c := by
  induction cells generalizing o with
  | nil => cases hc
  | cons a l ih =>
    rw [List.map_cons, List.nodup_cons] at hnd
    rw [List.foldl_cons]
    rcases List.mem_cons.1 hc with rfl | hc
    · have : ∀ (l : List α) (o : Nat → β), index c ∉ l.map index → l.foldl body o (index c) = o (index c) := by
        intro l
        induction l with
        | nil => intro _ _; rfl
        | cons b l ih =>
          intro o hn
          rw [List.map_cons, List.mem_cons, not_or] at hn
          rw [List.foldl_cons, ih _ hn.2, hkeep _ _ _ hn.1]
      rw [this l _ hnd.1, hset]
    · exact ih hnd.2 _ hc

/-- Numbers with only the first `m` bits are below `2^m`. -/
theorem lt_two_pow_of_bits (x m : Nat) (h : ∀ f, m ≤ f → x.testBit f = false) : x < 2 ^ m := Nat.lt_pow_two_of_testBit x h

theorem faceOrient_bits (cells : List Cell) (hnd : (cells.map (·.index)).Nodup)
    (hf : ∀ c ∈ cells, ∀ is ∈ c.intersections, is.face < 8) (c : Cell) (hc : c ∈ cells) (f : Nat) :
    (faceOrient cells c.index).testBit f = true ↔
      ∃ is ∈ c.intersections, is.face = f ∧ ∃ o, is.outside = some o ∧ c.index < o := by
  let cond : Cell → Intersection → Bool := fun c is => match is.outside with | some o => decide (o > c.index) | none => false
  -- Cells with faces out of range do not occur; drop them to state the loop for all cells.
  have h8 : ∀ c ∈ cells, c.intersections.all (fun is => decide (is.face < 8)) = true := by
    intro c hc
    rw [List.all_eq_true]
    intro is his
    exact decide_eq_true (hf c hc is his)
  have hbody : faceOrient cells = cells.foldl (fun orient c =>
      (c.intersections.filter fun is => decide (is.face < 8)).foldl (fun orient is =>
        if cond c is && decide (is.face < 8) then setAt orient c.index (orBit (orient c.index) is.face) else orient)
        (setAt orient c.index 0)) fun _ => 0 := by
    rw [faceOrient]
    refine List.foldl_ext _ _ _ fun o c hc => ?_
    rw [List.filter_eq_self.2 fun is his => by simpa using hf c hc is his]
    refine List.foldl_ext _ _ _ fun o is his => ?_
    have := hf c hc is his
    simp only [cond]
    rcases Option.eq_none_or_eq_some is.outside with hO | ⟨k, hO⟩
    · simp [hO]
    · simp [hO, this]
  have hset : ∀ (o : Nat → Nat) (c : Cell), ∀ g,
      (((c.intersections.filter fun is => decide (is.face < 8)).foldl (fun orient is =>
        if cond c is && decide (is.face < 8) then setAt orient c.index (orBit (orient c.index) is.face) else orient)
        (setAt o c.index 0)) c.index).testBit g =
      (c.intersections.filter fun is => decide (is.face < 8)).any fun is => (cond c is && decide (is.face < 8)) && decide (g = is.face) := by
    intro o c g
    have h := setBits c.index (fun is => cond c is && decide (is.face < 8)) (·.face)
      (fun t ht => by simp at ht; exact ht.2) (c.intersections.filter fun is => decide (is.face < 8)) (setAt o c.index 0)
      (by simp [setAt])
    rw [h.2.2 g]
    simp [setAt]
  have := foldl_cells (·.index) (fun orient c =>
      (c.intersections.filter fun is => decide (is.face < 8)).foldl (fun orient is =>
        if cond c is && decide (is.face < 8) then setAt orient c.index (orBit (orient c.index) is.face) else orient)
        (setAt orient c.index 0))
    (fun c => ((c.intersections.filter fun is => decide (is.face < 8)).foldl (fun orient is =>
        if cond c is && decide (is.face < 8) then setAt orient c.index (orBit (orient c.index) is.face) else orient)
        (setAt (fun _ => 0) c.index 0)) c.index)
    (fun o c => Nat.eq_of_testBit_eq fun g => by rw [hset, hset])
    (fun o c j hj => by
      have h := setBits c.index (fun is => cond c is && decide (is.face < 8)) (·.face)
        (fun t ht => by simp at ht; exact ht.2) (c.intersections.filter fun is => decide (is.face < 8)) (setAt o c.index 0)
        (by simp [setAt])
      rw [h.2.1 j hj]
      simp [setAt, hj])
    cells hnd (fun _ => 0) c hc
  rw [hbody, this, hset]
  simp only [List.any_eq_true, List.mem_filter, Bool.and_eq_true, decide_eq_true_eq]
  constructor
  · rintro ⟨is, ⟨h1, _⟩, ⟨h2, _⟩, h3⟩
    refine ⟨is, h1, h3.symm, ?_⟩
    simp only [cond] at h2
    cases ho : is.outside with
    | none => rw [ho] at h2; cases h2
    | some k => rw [ho] at h2; exact ⟨k, rfl, by simpa using h2⟩
  · rintro ⟨is, h1, h2, o, ho, hlt⟩
    refine ⟨is, ⟨h1, hf c hc is h1⟩, ⟨?_, hf c hc is h1⟩, h2.symm⟩
    simp [cond, ho, hlt]

theorem edgeOrient_bits (edges : List (Nat × Nat)) (he : edges.length ≤ 8) (cells : List VertexCell)
    (hnd : (cells.map (·.index)).Nodup) (c : VertexCell) (hc : c ∈ cells) (f : Nat) :
    (edgeOrient edges cells c.index).testBit f = true ↔ f < edges.length ∧
      decide ((edges.getD f (0, 0)).1 > (edges.getD f (0, 0)).2) ≠
        decide (c.vid (edges.getD f (0, 0)).1 > c.vid (edges.getD f (0, 0)).2) := by
  let cond : VertexCell → Nat → Bool := fun c i =>
    decide ((edges.getD i (0, 0)).1 > (edges.getD i (0, 0)).2) != decide (c.vid (edges.getD i (0, 0)).1 > c.vid (edges.getD i (0, 0)).2)
  let body : (Nat → Nat) → VertexCell → Nat → Nat := fun orient c =>
    (List.range edges.length).foldl (fun orient i =>
      if cond c i && decide (i < 8) then setAt orient c.index (orBit (orient c.index) i) else orient) (setAt orient c.index 0)
  have hbody : edgeOrient edges cells = cells.foldl body fun _ => 0 := by
    rw [edgeOrient]
    refine List.foldl_ext _ _ _ fun o c _ => ?_
    refine List.foldl_ext _ _ _ fun o i hi => ?_
    have : i < 8 := by rw [List.mem_range] at hi; omega
    simp [cond, this]
  have hset : ∀ (o : Nat → Nat) (c : VertexCell) (g : Nat), (body o c c.index).testBit g =
      (List.range edges.length).any fun i => (cond c i && decide (i < 8)) && decide (g = i) := by
    intro o c g
    have h := setBits c.index (fun i => cond c i && decide (i < 8)) id (fun t ht => by simp at ht; exact ht.2)
      (List.range edges.length) (setAt o c.index 0) (by simp [setAt])
    have h3 := h.2.2 g
    simp only [id] at h3
    rw [h3]
    simp [setAt]
  have := foldl_cells (·.index) body (fun c => body (fun _ => 0) c c.index)
    (fun o c => Nat.eq_of_testBit_eq fun g => by rw [hset, hset])
    (fun o c j hj => by
      have h := setBits c.index (fun i => cond c i && decide (i < 8)) id (fun t ht => by simp at ht; exact ht.2)
        (List.range edges.length) (setAt o c.index 0) (by simp [setAt])
      have h2 := h.2.1 j hj
      simp only [id] at h2
      rw [show body o c j = _ from h2]
      simp [setAt, hj])
    cells hnd (fun _ => 0) c hc
  rw [hbody, this, hset]
  simp only [List.any_eq_true, List.mem_range, Bool.and_eq_true, decide_eq_true_eq, cond, bne_iff_ne]
  constructor
  · rintro ⟨i, h1, ⟨h2, _⟩, rfl⟩
    exact ⟨h1, h2⟩
  · rintro ⟨h1, h2⟩
    exact ⟨f, h1, ⟨h2, by omega⟩, rfl⟩

/-! ### Block size -/

theorem blockSize_invariant (l : List Nat) :
    match l.foldl blockSizeStep (some 0) with
    | none => ∃ v ∈ l, ∃ w ∈ l, 0 < v ∧ 0 < w ∧ v ≠ w
    | some s => (0 < s → s ∈ l) ∧ ∀ v ∈ l, 0 < v → v = s := by
  induction l using List.reverseRecOn with
  | nil => simp
  | append_singleton l a ih =>
    rw [List.foldl_append]
    revert ih
    generalize l.foldl blockSizeStep (some 0) = r
    intro ih
    cases r with
    | none =>
      obtain ⟨v, hv, w, hw, h⟩ := ih
      exact ⟨v, by simp [hv], w, by simp [hw], h⟩
    | some s =>
      obtain ⟨h1, h2⟩ := ih
      simp only [List.foldl_cons, List.foldl_nil, blockSizeStep]
      by_cases ha : a > 0
      · rw [if_pos ha]
        by_cases hs : s > 0 ∧ s ≠ a
        · rw [if_pos hs]
          exact ⟨s, by simp [h1 hs.1], a, by simp, hs.1, ha, hs.2⟩
        · rw [if_neg hs]
          refine ⟨fun _ => by simp, fun v hv hpos => ?_⟩
          rcases List.mem_append.1 hv with hv | hv
          · have := h2 v hv hpos
            by_contra hne
            exact hs ⟨by omega, by omega⟩
          · simpa using hv
      · rw [if_neg ha]
        refine ⟨fun h => by simp [h1 h], fun v hv hpos => ?_⟩
        rcases List.mem_append.1 hv with hv | hv
        · exact h2 v hv hpos
        · have : v = a := by simpa using hv
          omega

/-- The geometry types that are tried. -/
def triedTypes (dim : Nat) : List GeometryType :=
  (List.range (dim + 1)).flatMap fun d => { id := 0, dim := d, none := true } :: (List.range (2 ^ dim)).map fun id => { id, dim := d }

theorem blockSize_eq (dim : Nat) (size : GeometryType → Nat) :
    blockSize dim size = (((triedTypes dim).map size).foldl blockSizeStep (some 0)).getD 0 := by
  rw [blockSize, triedTypes, List.map_flatMap, List.foldl_flatMap]
  congr 1
  refine List.foldl_ext _ _ _ fun st d _ => ?_
  rw [List.map_cons, List.foldl_cons, List.map_map, List.foldl_map]
  rfl

theorem blockSize_spec (dim : Nat) (size : GeometryType → Nat) (s : Nat) (hs : 0 < s) :
    blockSize dim size = s ↔ (∃ g ∈ triedTypes dim, size g = s) ∧ ∀ g ∈ triedTypes dim, size g = 0 ∨ size g = s := by
  rw [blockSize_eq]
  have h := blockSize_invariant ((triedTypes dim).map size)
  revert h
  generalize ((triedTypes dim).map size).foldl blockSizeStep (some 0) = r
  intro h
  cases r with
  | none =>
    obtain ⟨v, hv, w, hw, h1, h2, h3⟩ := h
    rw [List.mem_map] at hv hw
    obtain ⟨g, hg, rfl⟩ := hv
    obtain ⟨g', hg', rfl⟩ := hw
    refine ⟨fun h => ?_, fun h => ?_⟩
    · simp at h; omega
    · have := h.2 g hg
      have := h.2 g' hg'
      omega
  | some t =>
    obtain ⟨h1, h2⟩ := h
    rw [Option.getD_some]
    constructor
    · rintro rfl
      have := h1 hs
      rw [List.mem_map] at this
      refine ⟨this, fun g hg => ?_⟩
      rcases Nat.eq_zero_or_pos (size g) with h0 | h0
      · exact Or.inl h0
      · exact Or.inr (h2 _ (List.mem_map_of_mem hg) h0)
    · rintro ⟨⟨g, hg, rfl⟩, h3⟩
      exact (h2 _ (List.mem_map_of_mem hg) hs).symm

/-! ### Variable order -/

theorem variable_history (maxP cells defaultP : Nat) (h256 : maxP < 256) (hd : defaultP ≤ maxP) (history : List (Nat × Nat))
    (hh : ∀ q ∈ history, q.1 < cells ∧ q.2 ≤ maxP) :
    ∃ v, history.foldlM (fun v q => v.setOrder q.1 q.2) (Variable.init maxP cells defaultP) = some v ∧ v.maxP = maxP ∧
      v.polOrder.length = cells ∧ ∀ e < cells, v.polOrder.getD e 0 = lastOrder defaultP e history := by
  induction history using List.reverseRecOn with
  | nil =>
    refine ⟨_, rfl, rfl, by simp [Variable.init], fun e he => ?_⟩
    rw [List.getD_eq_getElem _ _ (by simpa [Variable.init] using he)]
    simp [Variable.init, lastOrder, Nat.mod_eq_of_lt (show defaultP < 256 by omega)]
  | append_singleton l q ih =>
    obtain ⟨v, h1, h2, h3, h4⟩ := ih fun q hq => hh q (by simp [hq])
    have hq := hh q (by simp)
    refine ⟨{ v with polOrder := v.polOrder.set q.1 (q.2 % 256) }, ?_, h2, by simpa using h3, fun e he => ?_⟩
    · rw [List.foldlM_append, h1]
      simp [Variable.setOrder, h2, hq.2]
    · rw [Nat.mod_eq_of_lt (show q.2 < 256 by omega)]
      rw [lastOrder, List.reverse_append]
      simp only [List.reverse_cons, List.reverse_nil, List.nil_append, List.singleton_append, List.find?_cons]
      by_cases he' : q.1 = e
      · subst he'
        rw [List.getD_eq_getElem _ _ (by simpa [h3] using he)]
        simp
      · rw [show (q.1 == e) = false by simpa using he']
        have := h4 e he
        rw [lastOrder] at this
        rw [List.getD_eq_getElem _ _ (by simpa [h3] using he), List.getElem_set_ne he', ← List.getD_eq_getElem _ 0 (by simpa [h3] using he)]
        exact this

theorem lastOrder_le (maxP defaultP e : Nat) (hd : defaultP ≤ maxP) (history : List (Nat × Nat)) (hh : ∀ q ∈ history, q.2 ≤ maxP) :
    lastOrder defaultP e history ≤ maxP := by
  rw [lastOrder]
  cases h : history.reverse.find? fun q => q.1 == e with
  | none => exact hd
  | some q => exact hh q (by simpa using List.mem_of_find?_eq_some h)

/-! ### Mimetic elements -/

theorem set_range (l : List Nat) (k m : Nat) (h : k + m = l.length) (hl : ∀ i < k, l[i]? = some i) :
    (List.range' k m).foldl (fun v i => v.set i i) l = List.range (k + m) := by
  induction m generalizing l k with
  | zero =>
    rw [List.range'_zero, List.foldl_nil]
    refine List.ext_getElem? fun i => ?_
    by_cases hi : i < k
    · rw [hl i hi, List.getElem?_range (by omega)]
    · rw [List.getElem?_eq_none (by omega), List.getElem?_eq_none (by simp; omega)]
  | succ m ih =>
    rw [List.range'_succ, List.foldl_cons, ih _ _ (by simp; omega) ?_]
    · congr 1; omega
    · intro i hi
      by_cases hik : i = k
      · subst hik
        rw [List.getElem?_set_self (by omega)]
      · rw [List.getElem?_set_ne (by omega), hl i (by omega)]

theorem mimetic_find (m : Mimetic) (h : m.variant = List.range m.variant.length) (n : Nat) :
    let r := m.find n
    r.1.variant = List.range r.1.variant.length ∧ r.1.read r.2 = some n ∧ m.variant.length ≤ r.1.variant.length := by
  rw [Mimetic.find]
  by_cases hn : n < m.variant.length
  · rw [if_pos hn]
    refine ⟨h, ?_, le_rfl⟩
    simp only [Mimetic.read, if_true]
    rw [h, List.getElem?_range hn]
  · rw [if_neg hn]
    have hs := set_range (m.variant ++ List.replicate (n + 1 - m.variant.length) 0) m.variant.length (n + 1 - m.variant.length)
      (by simp) (fun i hi => by rw [List.getElem?_append_left hi, h, List.getElem?_range (by simpa using hi)])
    dsimp only
    rw [hs]
    refine ⟨by simp, ?_, by simp⟩
    simp only [Mimetic.read, if_true]
    rw [List.getElem?_range (by omega)]

end Verif.FEM
