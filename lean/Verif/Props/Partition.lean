import Verif.Proofs.Partition
import Mathlib.Tactic.Linarith
/-
Theorems about partitions of entity sets for concurrent assembly (C33 - C36).
-/
namespace Verif

open Partition Partition.Spec

/-! ### C33 -/

/-- C33: for all elements and all requested numbers of patches the split succeeds; it has the requested number of patches, or an
automatically chosen number of at least one if 0 was given; the patches put together are the elements, in order, so that each element is in
exactly one patch; and the sizes of any two patches differ by at most one. -/
theorem C33_split {α : Type} (dim patches : Nat) (elements : List α) :
    ∃ p ps, split dim patches elements = some (p, ps) ∧ ps.length = p ∧ 1 ≤ p ∧ (patches ≠ 0 → p = patches) ∧
      ps.flatten = elements ∧ ∀ a ∈ ps, ∀ b ∈ ps, a.length ≤ b.length + 1 := by
  have hp1 : 1 ≤ choosePatches dim patches elements.length := by
    unfold choosePatches
    split
    · exact Nat.le_max_left ..
    · omega
  obtain ⟨ps, h1, h2, h3, h4⟩ := splitLoop_spec (choosePatches dim patches elements.length - 1)
    (elements.length / choosePatches dim patches elements.length) (elements.length % choosePatches dim patches elements.length) elements
    (by
      rw [Nat.sub_add_cancel hp1]
      exact (Nat.div_add_mod _ _).symm)
    (by have := Nat.mod_lt elements.length (show choosePatches dim patches elements.length > 0 by omega); omega)
  refine ⟨choosePatches dim patches elements.length, ps, ?_, by omega, hp1, ?_, h3, ?_⟩
  · unfold split
    dsimp only
    rw [h1]
  · intro h
    unfold choosePatches
    rw [if_neg h]
  · intro a ha b hb
    rcases h4 a ha with h | h <;> rcases h4 b hb with h' | h' <;> omega

/-- C33, the automatic choice: if no number is given, the patches have between 125 and 250 elements in one dimension, twice as many in two and four
times as many in three dimensions, provided that there are enough elements for one patch. -/
theorem C33_automatic {α : Type} (dim : Nat) (hd : dim = 1 ∨ dim = 2 ∨ dim = 3) (elements : List α) (hn : 125 * 2 ^ (dim - 1) ≤ elements.length) :
    ∃ p ps, split dim 0 elements = some (p, ps) ∧ ∀ a ∈ ps, 125 * 2 ^ (dim - 1) ≤ a.length ∧ a.length ≤ 250 * 2 ^ (dim - 1) := by
  have hE : entitiesPerPatch dim = 125 * 2 ^ (dim - 1) := by rcases hd with rfl | rfl | rfl <;> rfl
  have hE0 : 0 < entitiesPerPatch dim := by rcases hd with rfl | rfl | rfl <;> decide
  rw [show 250 * 2 ^ (dim - 1) = 2 * entitiesPerPatch dim by rw [hE]; omega]
  rw [← hE] at hn ⊢
  generalize hEE : entitiesPerPatch dim = E at *
  have hq : 1 ≤ elements.length / E := (Nat.one_le_div_iff hE0).mpr hn
  have hc : choosePatches dim 0 elements.length = elements.length / E := by
    unfold choosePatches
    rw [if_pos rfl, hEE]
    omega
  generalize hp : elements.length / E = p at *
  obtain ⟨ps, h1, h2, h3, h4⟩ := splitLoop_spec (p - 1) (elements.length / p) (elements.length % p) elements
    (by
      rw [Nat.sub_add_cancel hq]
      exact (Nat.div_add_mod _ _).symm)
    (by have := Nat.mod_lt elements.length (show p > 0 by omega); omega)
  refine ⟨p, ps, ?_, fun a ha => ?_⟩
  · unfold split
    dsimp only
    rw [hc, h1]
  · have l1 : p * E ≤ elements.length := hp ▸ Nat.div_mul_le_self _ _
    have l2 : elements.length < (p + 1) * E := by
      have := Nat.lt_div_mul_add hE0 (a := elements.length)
      rw [hp] at this
      rw [Nat.add_mul]
      omega
    have l3 : E ≤ elements.length / p := (Nat.le_div_iff_mul_le (by omega)).mpr (by rw [Nat.mul_comm]; exact l1)
    have l4 : elements.length / p < 2 * E := (Nat.div_lt_iff_lt_mul (by omega)).mpr (lt_of_lt_of_le l2 (by nlinarith))
    rcases h4 a ha with h | h <;> omega

example : ∃ p ps, split 1 0 (List.range 300) = some (p, ps) ∧ ∀ a ∈ ps, 125 ≤ a.length ∧ a.length ≤ 250 :=
  C33_automatic 1 (Or.inl rfl) (List.range 300) (by simp)

example : split 2 3 [10, 11, 12, 13, 14, 15, 16, 17] = some (3, [[10, 11, 12], [13, 14, 15], [16, 17]]) := by decide
example : split 2 4 [10, 11] = some (4, [[10], [11], [], []]) := by decide
example : split 2 0 [10, 11] = some (1, [[10, 11]]) := by decide

/-! ### C34 -/

/-- C34: for every symmetric graph with fewer than 255 neighbours per vertex the coloring succeeds, and its own checks pass. Every vertex gets
a color below the reported number of colors and not above the number of its neighbours; neighbouring vertices get different colors; and
at most one color more is used than the largest number of neighbours. -/
theorem C34_coloring (g : Graph) (hg : Symmetric g) (hd : ∀ v, v < g.size → (g.row v).length < 255) :
    ∃ color count, makeColors g = .ok (color, count) ∧
      (∀ v, v < g.size → ∃ c, color v = some c ∧ c < count ∧ c ≤ degree g v ∧ ∀ w ∈ g.row v, w ≠ v → color w ≠ some c) ∧
      ∀ D, (∀ v, v < g.size → degree g v ≤ D) → count ≤ D + 1 := by
  obtain ⟨color, count, h1, h2, h3⟩ := makeColors_spec g hg hd
  refine ⟨color, count, h1, h2, ?_⟩
  intro D hD
  rcases h3 with rfl | ⟨v, hv, hc⟩
  · omega
  · obtain ⟨c, hc1, hc2, hc3, _⟩ := h2 v hv
    rw [hc] at hc1
    cases hc1
    have := hD v hv
    omega

/-- C34, the supported limit: exactly the graphs with a vertex of 255 or more neighbours are refused. -/
theorem C34_limit (g : Graph) (hg : Symmetric g) :
    makeColors g = .error .degreeTooLarge ↔ ∃ v, v < g.size ∧ 255 ≤ (g.row v).length := by
  constructor
  · intro h
    by_contra hne
    obtain ⟨color, count, h1, _⟩ := makeColors_spec g hg (by
      intro v hv
      by_contra h'
      exact hne ⟨v, hv, by omega⟩)
    rw [h1] at h
    cases h
  · rintro ⟨v, hv, hd⟩
    unfold makeColors
    rw [initQueue_throws g g.size 0 _ ⟨v, Nat.zero_le _, by omega, hd⟩]

/-- A wheel: vertex 0 is linked to all, the others form a ring of five; vertex 3 is also linked to itself. -/
def Partition.exGraph : Graph :=
  ⟨6, fun v => match v with
    | 0 => [1, 2, 3, 4, 5]
    | 1 => [0, 2, 5]
    | 2 => [0, 1, 3]
    | 3 => [0, 2, 3, 4]
    | 4 => [0, 3, 5]
    | 5 => [0, 1, 4]
    | _ => []⟩

example : Symmetric exGraph := by
  refine ⟨?_, ?_, ?_⟩
  · intro v w hw
    match v with
    | 0 | 1 | 2 | 3 | 4 | 5 => simp [exGraph] at hw ⊢; omega
    | n + 6 => simp [exGraph] at hw
  · intro v w hw
    match v with
    | 0 | 1 | 2 | 3 | 4 | 5 => simp [exGraph] at hw; rcases hw with rfl | rfl | rfl | rfl | rfl <;> simp [exGraph]
    | n + 6 => simp [exGraph] at hw
  · intro v
    match v with
    | 0 | 1 | 2 | 3 | 4 | 5 => simp [exGraph]
    | n + 6 => simp [exGraph]

example : (match makeColors exGraph with
    | .ok (color, count) => some ((List.range 6).map color, count)
    | .error _ => none) = some ([some 0, some 3, some 2, some 1, some 2, some 1], 4) := by decide

/-! ### C35 -/

/-- C35: two different patches are linked in the connectivity graph exactly if some sub-entity lies in both of their halos. -/
theorem C35_graph (g : Grid) (d : Nat) (patches : List (List Nat)) (i j : Nat) (hij : i ≠ j) :
    j ∈ (makeGraph g d patches).row i ↔ Connected g d patches i j :=
  makeGraph_connected g d patches i j hij

/-- C35, concurrent processing: when the colored partition can be built, each patch is in exactly one label set, and two patches (at
different places) of one label set share no sub-entity of their halos. The partition can be built if every patch is connected with fewer
than 254 others. -/
theorem C35_labels (g : Grid) (d : Nat) (patches : List (List Nat))
    (hd : ∀ i, i < patches.length → ((makeGraph g d patches).row i).length < 255) :
    ∃ labels, coloredUpdate g d patches = .ok (some labels) ∧ labels.flatten.Perm patches ∧
      ∀ label ∈ labels, ∀ (a b : Nat) (p q : List Nat), a ≠ b → label[a]? = some p → label[b]? = some q →
        ∀ s, InHalo g d p s → ¬ InHalo g d q s := by
  obtain ⟨color, count, h1, h2, _⟩ := makeColors_spec (makeGraph g d patches) (makeGraph_symmetric g d patches) hd
  obtain ⟨labels, h3, h4, h5⟩ := distribute_spec color count 0 patches (List.replicate count []) (by simp) (by
    intro i hi _
    obtain ⟨c, hc1, hc2, _⟩ := h2 i (show i < patches.length by omega)
    exact ⟨c, hc1, hc2⟩)
  have hlab : ∀ c, c < count → labels.getD c [] = ((patches.zipIdx 0).filter fun x => color x.2 = some c).map (·.1) := by
    intro c hc
    rw [h5 c hc]
    simp [List.getD_eq_getElem?_getD, hc]
  refine ⟨labels, ?_, ?_, ?_⟩
  · unfold coloredUpdate
    rw [h1]; dsimp only
    rw [h3]
  · -- the label sets are a rearrangement of the patches
    have hl : labels = (List.range count).map fun c => ((patches.zipIdx 0).filter fun x => color x.2 = some c).map (·.1) := by
      refine List.ext_getElem (by simp [h4]) ?_
      intro c hc1 hc2
      have := hlab c (by omega)
      rw [List.getD_eq_getElem?_getD, List.getElem?_eq_getElem hc1, Option.getD_some] at this
      rw [this]; simp
    rw [hl]
    have hcol : ∀ x ∈ patches.zipIdx 0, ∃ c, color x.2 = some c ∧ c < count := by
      intro x hx
      have : x.2 < patches.length := by
        have := List.snd_lt_of_mem_zipIdx hx
        simpa using this
      obtain ⟨c, hc1, hc2, _⟩ := h2 x.2 this
      exact ⟨c, hc1, hc2⟩
    have key : ∀ (l : List (List Nat × Nat)), (∀ x ∈ l, ∃ c, color x.2 = some c ∧ c < count) →
        ((List.range count).map fun c => (l.filter fun x => color x.2 = some c).map (·.1)).flatten.Perm (l.map (·.1)) := by
      intro l
      induction l with
      | nil => intro _; simp
      | cons x l ih =>
        intro hx
        obtain ⟨c, hc1, hc2⟩ := hx x (List.mem_cons_self ..)
        have ih' := ih (fun y hy => hx y (List.mem_cons_of_mem _ hy))
        have hsplit : ∀ n, c < n → (((List.range n).map fun c => ((x :: l).filter fun x => color x.2 = some c).map (·.1)).flatten).Perm
            (x.1 :: ((List.range n).map fun c => (l.filter fun x => color x.2 = some c).map (·.1)).flatten) := by
          intro n hn
          induction n with
          | zero => omega
          | succ n ihn =>
            rw [List.range_succ, List.map_append, List.map_append, List.flatten_append, List.flatten_append]
            by_cases hcn : c = n
            · subst hcn
              have hsame : ((List.range c).map fun c => ((x :: l).filter fun x => color x.2 = some c).map (·.1)) =
                  (List.range c).map fun c => (l.filter fun x => color x.2 = some c).map (·.1) := by
                refine List.map_congr_left ?_
                intro y hy
                rw [List.mem_range] at hy
                rw [List.filter_cons, if_neg (by simp [hc1]; omega)]
              rw [hsame]
              simp only [List.map_cons, List.map_nil, List.flatten_cons, List.flatten_nil, List.append_nil]
              rw [List.filter_cons, if_pos (by simp [hc1]), List.map_cons]
              exact List.perm_middle
            · have := ihn (by omega)
              have hlast : ((x :: l).filter fun x => color x.2 = some n) = l.filter fun x => color x.2 = some n := by
                rw [List.filter_cons, if_neg (by simp [hc1, hcn])]
              simp only [List.map_cons, List.map_nil]
              rw [hlast]
              exact this.append_right _
        refine (hsplit count hc2).trans ?_
        exact List.Perm.cons _ ih'
    have := key (patches.zipIdx 0) hcol
    rwa [List.zipIdx_map_fst] at this
  · intro label hlabel a b p q hab ha hb s hp hq
    obtain ⟨c, hc, rfl⟩ := List.mem_iff_getElem.1 hlabel
    have hlc := hlab c (by omega)
    rw [List.getD_eq_getElem?_getD, List.getElem?_eq_getElem hc, Option.getD_some] at hlc
    rw [hlc, List.getElem?_map] at ha hb
    -- the positions of the two patches among all patches
    obtain ⟨x, hx, rfl⟩ := Option.map_eq_some_iff.1 ha
    obtain ⟨y, hy, rfl⟩ := Option.map_eq_some_iff.1 hb
    have hxm := List.mem_of_getElem? hx
    have hym := List.mem_of_getElem? hy
    rw [List.mem_filter] at hxm hym
    have hnd : ((patches.zipIdx 0).filter fun x => color x.2 = some c).Nodup := by
      refine List.Nodup.filter _ ?_
      refine List.Nodup.of_map (·.2) ?_
      rw [List.zipIdx_map_snd]
      exact List.nodup_range'
    have hxy : x ≠ y := by
      rintro rfl
      obtain ⟨ha', hxa⟩ := List.getElem?_eq_some_iff.1 hx
      obtain ⟨hb', hyb⟩ := List.getElem?_eq_some_iff.1 hy
      exact hab ((List.Nodup.getElem_inj_iff hnd).1 (hxa.trans hyb.symm))
    have hx2 := List.mem_zipIdx' hxm.1
    have hy2 := List.mem_zipIdx' hym.1
    have hi : x.2 ≠ y.2 := by
      intro h
      apply hxy
      have h1' := hx2.2
      have h2' := hy2.2
      refine Prod.ext ?_ h
      rw [h1', h2']
      simp only [h]
    have hpx : patches[x.2]? = some x.1 := by rw [List.getElem?_eq_getElem hx2.1]; exact congrArg some hx2.2.symm
    have hpy : patches[y.2]? = some y.1 := by rw [List.getElem?_eq_getElem hy2.1]; exact congrArg some hy2.2.symm
    have hcon : Connected g d patches x.2 y.2 := ⟨x.1, y.1, hpx, hpy, s, hp, hq⟩
    rw [← makeGraph_connected g d patches x.2 y.2 hi] at hcon
    obtain ⟨c', hc1, _, _, hc4⟩ := h2 x.2 hx2.1
    have hcx : color x.2 = some c := by simpa using hxm.2
    have hcy : color y.2 = some c := by simpa using hym.2
    rw [hcx] at hc1
    cases hc1
    exact hc4 y.2 hcon (Ne.symm hi) hcy

/-- A row of six intervals; element `e` has the vertices `10+e` and `11+e`. -/
def Partition.exGrid : Grid :=
  ⟨fun e => [e, 10 + e, 11 + e], fun e => (if e = 0 then [] else [e - 1]) ++ (if e < 5 then [e + 1] else [])⟩

/-- The last of the patches is too far from the first to be connected with it. -/
example : (List.range 3).map (makeGraph exGrid 0 [[0, 1], [2, 3], [4, 5]]).row = [[0, 1], [0, 1, 2], [1, 2]] := by decide
example : coloredUpdate exGrid 0 [[0, 1], [2, 3], [4, 5]] = .ok (some [[[2, 3]], [[0, 1], [4, 5]]]) := by decide
example : coloredUpdate exGrid 1 [[0, 1], [2, 3], [4, 5]] = .ok (some [[[4, 5]], [[2, 3]], [[0, 1]]]) := by decide

/-! ### C36 -/

/-- C36: for every interleaving of the threads in each of the three phases and for any label sets, an element is marked as overlap exactly if
it belongs to a patch of some label set and shares a sub-entity with the halo of a different patch of this label set. -/
theorem C36_halo (g : Grid) (d : Nat) (labels : List (List (List Nat))) (h h' : Nat → Bool) (hr : HaloRun g d labels h h') (e : Nat) :
    h' e = true ↔ h e = true ∨ ∃ patches ∈ labels, ∃ (i : Nat) (p : List Nat), patches[i]? = some p ∧ e ∈ p ∧ ∃ s ∈ g.sub e,
      ∃ (j : Nat) (q : List Nat), j ≠ i ∧ patches[j]? = some q ∧ InHalo g d q s := by
  induction hr with
  | nil h => simp
  | cons h1 _ ih =>
    rw [ih, labelRun_spec h1 e, or_assoc]
    refine or_congr Iff.rfl ?_
    simp only [List.mem_cons, exists_eq_or_imp]

/-- C36, independence of the schedule: two runs on the same partition mark the same elements. -/
theorem C36_deterministic (g : Grid) (d : Nat) (labels : List (List (List Nat))) (h a b : Nat → Bool)
    (ha : HaloRun g d labels h a) (hb : HaloRun g d labels h b) : a = b := by
  funext e
  have := (C36_halo g d labels h a ha e).trans (C36_halo g d labels h b hb e).symm
  exact Bool.eq_iff_iff.2 this

/-- C36, safety of interior elements: no sub-entity of an element which was not marked is in the halo of another patch of the label set,
so that no other thread touches it. -/
theorem C36_interior (g : Grid) (d : Nat) (labels : List (List (List Nat))) (h h' : Nat → Bool) (hr : HaloRun g d labels h h')
    (patches : List (List Nat)) (hp : patches ∈ labels) (i j : Nat) (p q : List Nat) (hi : patches[i]? = some p)
    (hj : patches[j]? = some q) (hij : j ≠ i) (e : Nat) (he : e ∈ p) (hint : h' e = false) (s : Nat) (hs : s ∈ g.sub e) :
    ¬ InHalo g d q s := by
  intro hq
  have := (C36_halo g d labels h h' hr e).2 (Or.inr ⟨patches, hp, i, p, hi, he, s, hs, j, q, hij, hj, hq⟩)
  rw [hint] at this
  cases this

/-- The programs in order are one possible run. -/
theorem Partition.sequential (prog : Nat → List Op) (n : Nat) (hn : ∀ t, n ≤ t → prog t = []) :
    Interleaving prog ((List.range n).flatMap fun t => (prog t).map fun o => (t, o)) := by
  intro t
  have key : ∀ m, (((List.range m).flatMap fun t => (prog t).map fun o => (t, o)).filter fun o => o.1 = t).map (·.2) =
      if t < m then prog t else [] := by
    intro m
    induction m with
    | zero => simp
    | succ m ih =>
      rw [List.range_succ, List.flatMap_append, List.filter_append, List.map_append, ih]
      by_cases ht : t < m
      · rw [if_pos ht, if_pos (by omega)]
        simp [show m ≠ t by omega]
      · rw [if_neg ht]
        by_cases htm : t = m
        · subst htm
          simp [List.filter_map, Function.comp_def]
        · rw [if_neg (by omega)]
          simp [show m ≠ t by omega]
  rw [key n]
  split
  · rfl
  · rw [hn t (by omega)]

/-- A run of the two patches `{0,1,2}` and `{3,4,5}`: it marks the elements at their common vertex. -/
example : ∃ h', HaloRun exGrid 0 [[[0, 1, 2], [3, 4, 5]]] (fun _ => false) h' ∧ (List.range 6).map h' = [false, false, true, true, false, false] := by
  have hn : ∀ t, 2 ≤ t → ([[0, 1, 2], [3, 4, 5]] : List (List Nat)).getD t [] = [] := by
    intro t ht
    rw [List.getD_eq_getElem?_getD, List.getElem?_eq_none (by simpa using ht)]; rfl
  refine ⟨_, .cons (.run _ (fun _ => 0) (fun _ => false) _ _ _
    (sequential (phase1 exGrid [[0, 1, 2], [3, 4, 5]]) 2 (fun t ht => by rw [phase1, hn t ht]; rfl))
    (sequential (phase2 exGrid 0 [[0, 1, 2], [3, 4, 5]]) 2 (fun t ht => by rw [phase2, hn t ht]; rfl))
    (sequential (phase3 exGrid [[0, 1, 2], [3, 4, 5]]) 2 (fun t ht => by rw [phase3, hn t ht]; rfl))) (.nil _), ?_⟩
  decide +kernel

end Verif
