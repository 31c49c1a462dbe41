import Mathlib.Data.Nat.Basic
import Verif.Proofs.LoadBalance
set_option synthInstance.maxSize 1024
set_option synthInstance.maxHeartbeats 400000
set_option linter.unusedSectionVars false
/-
Theorems about load balancing with data (C183).
-/
namespace Verif

open LoadBalance

variable {Byte E I K : Type} [DecidableEq I]

/-- **C183**. `loadBalanceGrid`, for any numbers of function spaces and vectors, any partition before and after, and whatever the grid
sends in whatever order: if the vectors have the values of functions (`val k j`) on all interior and border entities before, they have them
afterwards, on the interior and border entities of the new partition, in the numbering of the updated spaces; no assertion fails and no
message is read beyond its end. All other entries are zero. -/
theorem C183_values_partial [Zero K] (F : Field Byte K) (id : E → I) (dim procs : Nat) (packs : List Nat) (ts : List (Transfer E))
    (new : Nat → Space E) (s : State E I K) (val : Nat → Nat → I → List K) (bound : Nat)
    (hsize : ∀ n ≤ bound, F.toSize (F.ofSize n) = n) (hval : ∀ k j i, (val k j i).length ≤ bound)
    (hgrid : ∀ k < packs.length, Delivers id dim procs ts (s.space k) (new k))
    (hold : ∀ k j, j < packs.getD k 0 → ∀ p < procs, Carries id dim (s.space k) (val k j) p (s.vec k j p))
    (hnum : ∀ k < packs.length, ∀ p < procs, Numbered dim (new k) p)
    (hlen : ∀ k j, j < packs.getD k 0 → ∀ p < procs, ∀ c ≤ dim, (new k).hasDOFs c = true → ∀ e ∈ (new k).interiorBorder p c,
      (val k j (id e)).length = ((new k).dofs p e).length) :
    ∃ s', run F id dim procs ts new packs s = some s' ∧ (∀ k < packs.length, s'.space k = new k) ∧
      ∀ k j, j < packs.getD k 0 → ∀ p < procs, Carries id dim (new k) (val k j) p (s'.vec k j p) ∧
        ∀ i, ¬ Covered dim (new k) p i → s'.vec k j p i = 0 := by
  have hk : ∀ k j, (k, j) ∈ pairs 0 packs ↔ j < packs.getD k 0 := fun k j => by rw [mem_pairs]; simp
  have hk' : ∀ k j, j < packs.getD k 0 → k < packs.length := by
    intro k j h
    by_cases e : k < packs.length
    · exact e
    · rw [List.getD_eq_getElem?_getD, List.getElem?_eq_none (by omega)] at h
      simp at h
  obtain ⟨s1, e1, hs1, hv1, hm1⟩ := exec_fills F id dim procs ts new (pairs 0 packs) s
  have hfill : ∀ k j, (k, j) ∈ pairs 0 packs → MapInv id dim procs (s.space k) (new k) (val k j) (s1.map k j) := by
    intro k j hkj
    have hc := hold k j ((hk k j).1 hkj)
    constructor
    · intro p hp e he
      rw [hm1, if_pos hkj, fillMap_eq]
      refine (fold_insert id _ (val k j) _ _ (fun x hx => ?_) (by simp)).1 e he
      obtain ⟨c, h1, h2, h3⟩ := (mem_visited _ _ _ _).1 hx
      exact hc p hp c h1 h2 x h3
    · intro p hp e _ d hd
      rw [hm1, if_pos hkj, fillMap_eq] at hd
      refine (fold_insert id _ (val k j) _ _ (fun x hx => ?_) (by simp)).2.2 _ _ hd
      obtain ⟨c, h1, h2, h3⟩ := (mem_visited _ _ _ _).1 hx
      exact hc p hp c h1 h2 x h3
  obtain ⟨s2, e2, hs2, hv2, hi2, hp2, hc2⟩ := transfers_eq F id dim procs (pairs 0 packs) s.space new val (hsize 0 (by omega))
    (fun k j _ i => hsize _ (hval k j i)) ts
    (fun k j hkj t ht => (hgrid k (hk' k j ((hk k j).1 hkj))).sent t ht)
    (fun k j hkj t ht h1 h2 e he => by
      obtain ⟨c, h3, h4, h5⟩ := (mem_visited _ _ _ _).1 he
      exact (hgrid k (hk' k j ((hk k j).1 hkj))).other t ht h1 h2 c h3 h4 e h5) s1 hs1 hfill
  have hall : ∀ k j, (k, j) ∈ pairs 0 packs → ∀ p < procs, ∀ e ∈ visited (new k) p dim,
      s2.map k j p (id e) = some (val k j (id e)) := by
    intro k j hkj p hp e he
    obtain ⟨c, h3, h4, h5⟩ := (mem_visited _ _ _ _).1 he
    have hsome : (s2.map k j p (id e)).isSome = true := by
      rcases (hgrid k (hk' k j ((hk k j).1 hkj))).complete p hp c h3 h4 e h5 with ⟨c', h6, h7, e', h8, h9⟩ | ⟨t, ht, h6, h7, h8, _⟩
      · rw [← h9, (hi2 k j hkj).keep p hp e' ((mem_visited _ _ _ _).2 ⟨c', h6, h7, h8⟩)]; rfl
      · rw [← h7, ← h6]; exact hc2 k j hkj t ht h8
    obtain ⟨d, hd⟩ := Option.isSome_iff_exists.1 hsome
    rw [hd, (hi2 k j hkj).right p hp e he d hd]
  have hread : ∀ k j, (k, j) ∈ pairs 0 packs → ∀ p < procs, ∃ w, readMap id (new k) p (s2.map k j p) dim (fun _ => 0) = some w ∧
      (∀ e ∈ visited (new k) p dim, ((new k).dofs p e).map w = val k j (id e)) ∧
      ∀ i, (∀ e ∈ visited (new k) p dim, i ∉ (new k).dofs p e) → w i = 0 := by
    intro k j hkj p hp
    have hn := hnum k (hk' k j ((hk k j).1 hkj)) p hp
    rw [readMap_eq]
    refine read_all id (new k) p _ (val k j) _ _ (hall k j hkj p hp) ?_ ?_ ?_
    · intro e he
      obtain ⟨c, h3, h4, h5⟩ := (mem_visited _ _ _ _).1 he
      exact hlen k j ((hk k j).1 hkj) p hp c h3 h4 e h5
    · intro e he
      obtain ⟨c, h3, _, h5⟩ := (mem_visited _ _ _ _).1 he
      exact hn.nodup c h3 e h5
    · intro e he e' he'
      obtain ⟨c, h3, _, h5⟩ := (mem_visited _ _ _ _).1 he
      obtain ⟨c', h3', _, h5'⟩ := (mem_visited _ _ _ _).1 he'
      exact hn.disjoint c h3 c' h3' e h5 e' h5'
  classical
  let res : Nat → Nat → Nat → Nat → K := fun k j p =>
    if h : (k, j) ∈ pairs 0 packs ∧ p < procs then (hread k j h.1 p h.2).choose else fun _ => 0
  have hres : ∀ k j (h1 : (k, j) ∈ pairs 0 packs) p (h2 : p < procs), res k j p = (hread k j h1 p h2).choose := by
    intro k j h1 p h2
    simp only [res]
    rw [dif_pos ⟨h1, h2⟩]
  obtain ⟨s3, e3, _, hs3, hv3⟩ := exec_back F id dim procs ts new packs 0 s2 res (by
    intro k j h1 p h2
    rw [hres k j h1 p h2]
    exact (hread k j h1 p h2).choose_spec.1)
  refine ⟨s3, ?_, fun k h => by rw [hs3, if_pos ⟨by omega, by omega⟩], fun k j hj p hp => ?_⟩
  · unfold run ops
    rw [iteratePacks_shape, List.foldlM_append, e1]
    change (Option.bind (some s1) _) = _
    rw [Option.bind_some, List.foldlM_append, List.nil_append]
    have : List.foldlM (exec F id dim procs ts new) s1 [Op.balance (pairs 0 packs)] = some s2 := by
      rw [List.foldlM_cons]
      change (Option.bind (ts.foldlM (transfer F id (pairs 0 packs)) s1) _) = _
      rw [e2]
      rfl
    rw [this]
    exact e3
  · have hkj := (hk k j).2 hj
    have hw := (hread k j hkj p hp).choose_spec
    rw [hv3, if_pos ⟨hkj, hp⟩, hres k j hkj p hp]
    refine ⟨fun c h1 h2 e h3 => hw.2.1 e ((mem_visited _ _ _ _).2 ⟨c, h1, h2, h3⟩), fun i hi => hw.2.2 i fun e he hmem => hi ?_⟩
    obtain ⟨c, h3, h4, h5⟩ := (mem_visited _ _ _ _).1 he
    exact ⟨c, h3, h4, e, h5, hmem⟩

/-- The result does not depend on what is sent and in which order, as long as everything needed is sent. -/
theorem C183_schedule [Zero K] (F : Field Byte K) (id : E → I) (dim procs : Nat) (packs : List Nat) (ts ts' : List (Transfer E))
    (new : Nat → Space E) (s : State E I K) (val : Nat → Nat → I → List K) (bound : Nat)
    (hsize : ∀ n ≤ bound, F.toSize (F.ofSize n) = n) (hval : ∀ k j i, (val k j i).length ≤ bound)
    (hgrid : ∀ k < packs.length, Delivers id dim procs ts (s.space k) (new k) ∧ Delivers id dim procs ts' (s.space k) (new k))
    (hold : ∀ k j, j < packs.getD k 0 → ∀ p < procs, Carries id dim (s.space k) (val k j) p (s.vec k j p))
    (hnum : ∀ k < packs.length, ∀ p < procs, Numbered dim (new k) p)
    (hlen : ∀ k j, j < packs.getD k 0 → ∀ p < procs, ∀ c ≤ dim, (new k).hasDOFs c = true → ∀ e ∈ (new k).interiorBorder p c,
      (val k j (id e)).length = ((new k).dofs p e).length) :
    ∃ s1 s2, run F id dim procs ts new packs s = some s1 ∧ run F id dim procs ts' new packs s = some s2 ∧
      ∀ k j, j < packs.getD k 0 → ∀ p < procs, s1.vec k j p = s2.vec k j p := by
  obtain ⟨s1, h1, _, h2⟩ := C183_values_partial F id dim procs packs ts new s val bound hsize hval (fun k hk => (hgrid k hk).1) hold hnum hlen
  obtain ⟨s2, h3, _, h4⟩ := C183_values_partial F id dim procs packs ts' new s val bound hsize hval (fun k hk => (hgrid k hk).2) hold hnum hlen
  refine ⟨s1, s2, h1, h3, fun k j hj p hp => funext fun i => ?_⟩
  by_cases hi : Covered dim (new k) p i
  · obtain ⟨c, hc, hd, e, he, hm⟩ := hi
    exact List.map_inj_left.1 (((h2 k j hj p hp).1 c hc hd e he).trans ((h4 k j hj p hp).1 c hc hd e he).symm) i hm
  · rw [(h2 k j hj p hp).2 i hi, (h4 k j hj p hp).2 i hi]

/-- The size that is announced for an entity is the number of bytes that are written for it. -/
theorem C183_size (F : Field Byte K) (id : E → I) (p : Nat) (e : E) (codim : Nat) (xs : List (Entry E I K)) (buf : List Byte)
    (h : gather F id p e codim xs [] = some buf) : LoadBalance.size F id p e codim xs = some buf.length := by
  have hx : ∀ (xs : List (Entry E I K)) b r, gather F id p e codim xs b = some r →
      ∀ x ∈ xs, x.space.hasDOFs codim = true → x.space.contains p e = true → ∃ d, x.map (id e) = some d := by
    intro xs
    induction xs with
    | nil => simp
    | cons y ys ih =>
      intro b r hr x hx h1 h2
      unfold gather at hr
      obtain ⟨b', h3, h4⟩ : ∃ b', (y.space.hasDOFs codim = true → y.space.contains p e = true → ∃ d, y.map (id e) = some d) ∧
          gather F id p e codim ys b' = some r := by
        by_cases h5 : y.space.hasDOFs codim = true
        · by_cases h6 : y.space.contains p e = true
          · cases h7 : y.map (id e) with
            | none => simp [h5, h6, h7] at hr
            | some d => exact ⟨_, fun _ _ => ⟨d, rfl⟩, by simpa [h5, h6, h7] using hr⟩
          · exact ⟨_, fun _ h => absurd h h6, by simpa [h5, h6] using hr⟩
        · exact ⟨_, fun h => absurd h h5, by simpa [h5] using hr⟩
      rcases List.mem_cons.1 hx with rfl | hx
      · exact h3 h1 h2
      · exact ih b' r h4 x hx h1 h2
  have hh := hx xs [] buf h
  have hg := gather_eq F id p e codim xs [] hh
  rw [hg] at h
  rw [size_eq F id p e codim xs hh]
  simp only [List.nil_append, Option.some.injEq] at h
  rw [h]

/-! Examples: linear elements on an interval with the vertices 0, …, 4, of which the coarse grid has 0, 2 and 4 with the same ids. Process 0
has the vertices 0 to 3 before, and 0 to 2 afterwards. Process 1 has the vertices 3 and 4 before, and 2 to 4 afterwards. Vertex 4 is in the
overlap of process 0 before. -/

/-- Numbers as bytes. -/
def lbField : Field Int Int where
  codec := ⟨1, fun a => [a], fun l => l.headD 0, by decide, fun _ => rfl, fun _ => rfl⟩
  ofSize n := n
  toSize a := a.toNat

/-- An entity: the id, and whether it is in the leaf grid. -/
abbrev LbEnt := Nat × Bool

def lbOld : Space LbEnt where
  hasDOFs c := c == 1
  contains _ e := e.2
  interiorBorder p c := if c = 1 then (if p = 0 then [(0, true), (1, true), (2, true), (3, true)] else
    if p = 1 then [(3, true), (4, true)] else []) else []
  dofs p e := if p = 0 then [e.1] else [4 - e.1]

def lbNew : Space LbEnt where
  hasDOFs c := c == 1
  contains _ e := e.2
  interiorBorder p c := if c = 1 then (if p = 0 then [(2, true), (1, true), (0, true)] else
    if p = 1 then [(4, true), (3, true), (2, true)] else []) else []
  dofs p e := if p = 0 then [2 - e.1] else [e.1 - 2]

/-- Two vectors of one space: 10 times the number of the vertex, and its square. -/
def lbVal (_ j : Nat) (i : Nat) : List Int := [if j = 0 then 10 * i else i * i]

def lbState : State LbEnt Nat Int where
  space _ := lbOld
  vec _ j p i := if p = 0 then (if j = 0 then 10 * i else i * i) else (if j = 0 then 10 * (4 - i) else (4 - i) * (4 - i))
  map _ _ _ _ := none

/-- Vertex 2 is sent to process 1; vertex 0 of the coarse grid is sent, too. -/
def lbSend : List (Transfer LbEnt) := [⟨0, 1, (0, false), 1⟩, ⟨0, 1, (2, true), 1⟩, ⟨0, 1, (3, true), 1⟩]

example : (∀ n ≤ 1, lbField.toSize (lbField.ofSize n) = n) ∧ (∀ k j i, (lbVal k j i).length ≤ 1) ∧
    Delivers Prod.fst 1 2 lbSend lbOld lbNew ∧
    (∀ k j, j < [2].getD k 0 → ∀ p < 2, Carries Prod.fst 1 lbOld (lbVal k j) p (lbState.vec k j p)) ∧
    (∀ p < 2, Numbered 1 lbNew p) ∧
    (run lbField Prod.fst 1 2 lbSend (fun _ => lbNew) [2] lbState).map
      (fun s => (List.range 4).map fun i => (s.vec 0 0 0 i, s.vec 0 0 1 i, s.vec 0 1 1 i)) =
      some [(20, 20, 4), (10, 30, 9), (0, 40, 16), (0, 0, 0)] := by
  refine ⟨by decide, fun _ _ _ => Nat.le_refl 1, ⟨by decide, by decide, by decide⟩, ?_, fun p hp => ⟨?_, ?_⟩, by decide +kernel⟩
  · intro k j hj p hp
    have hk : k = 0 := by
      cases k with
      | zero => rfl
      | succ k => simp at hj
    subst hk
    have H : ∀ j < 2, ∀ p < 2, Carries Prod.fst 1 lbOld (lbVal 0 j) p (lbState.vec 0 j p) := by
      unfold Carries
      decide
    exact H j hj p hp
  · revert p; decide
  · intro c hc c' hc' e he e' he' hne
    have H : ∀ p < 2, ∀ c ≤ 1, ∀ e ∈ lbNew.interiorBorder p c, e.1 ≤ 4 ∧ e.2 = true ∧ (p = 0 → e.1 ≤ 2) ∧ (p = 1 → 2 ≤ e.1) := by decide
    have h1 := H p hp c hc e he
    have h2 := H p hp c' hc' e' he'
    have h3 : e.1 ≠ e'.1 := fun h => hne (Prod.ext h (h1.2.1.trans h2.2.1.symm))
    intro i hi hi'
    simp only [lbNew] at hi hi'
    split at hi
    · rename_i h0
      have h4 := h1.2.2.1 h0
      have h5 := h2.2.2.1 h0
      simp [h0] at hi hi'
      omega
    · rename_i h0
      have h4 := h1.2.2.2 (by omega)
      have h5 := h2.2.2.2 (by omega)
      simp [h0] at hi hi'
      omega

/-- If an entity outside of the entity set has the id of one inside (a vertex of the coarse grid that is also one of the leaf grid) and is
sent first, an empty entry takes its place in the map, the values sent later are dropped, and an assertion fails. -/
theorem C183_shared_ids_false :
    ∃ ts : List (Transfer LbEnt),
      (∀ t ∈ ts, lbOld.hasDOFs t.codim = true → lbOld.contains t.src t.entity = true →
        t.src < 2 ∧ t.codim ≤ 1 ∧ t.entity ∈ lbOld.interiorBorder t.src t.codim) ∧
      (∀ p < 2, ∀ c ≤ 1, lbNew.hasDOFs c = true → ∀ e ∈ lbNew.interiorBorder p c,
        (∃ e' ∈ lbOld.interiorBorder p c, e'.1 = e.1) ∨
        ∃ t ∈ ts, t.dst = p ∧ t.entity = e ∧ lbOld.hasDOFs t.codim = true ∧ lbOld.contains t.src t.entity = true) ∧
      run lbField Prod.fst 1 2 ts (fun _ => lbNew) [2] lbState = none := by
  refine ⟨[⟨0, 1, (2, false), 1⟩, ⟨0, 1, (2, true), 1⟩], by decide, by decide, ?_⟩
  have : (run lbField Prod.fst 1 2 [⟨0, 1, (2, false), 1⟩, ⟨0, 1, (2, true), 1⟩] (fun _ => lbNew) [2] lbState).isNone = true := by
    decide +kernel
  exact Option.isNone_iff_eq_none.1 this

/-- Even if the grid moves nothing, the values of degrees of freedom in the overlap are lost: they are not restored, and not communicated. -/
theorem C183_overlap_false :
    ∃ (e : LbEnt) (i : Nat), lbOld.contains 0 e = true ∧ i ∈ lbOld.dofs 0 e ∧ lbState.vec 0 0 0 i = 40 ∧
      Delivers Prod.fst 1 2 [] lbOld lbOld ∧
      (run lbField Prod.fst 1 2 [] (fun _ => lbOld) [2] lbState).map (fun s => s.vec 0 0 0 i) = some 0 := by
  refine ⟨(4, true), 4, by decide, by decide, by decide, ⟨by decide, by decide, by decide⟩, by decide +kernel⟩

end Verif
