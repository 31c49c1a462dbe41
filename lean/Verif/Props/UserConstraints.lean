import Verif.Proofs.UserConstraints
import Verif.Props.ConstraintsAssembly
/-
Properties of the assembly of constraints with constraints classes written by users.
-/
namespace Verif
open GridAssembler Constraints ConsAsm ConsAsm.Spec

/-! ## C221: constraints classes are asked exactly where they should be -/

section C221
variable {D F I : Type} [DecidableEq D] [DecidableEq I]

/-- With constraints classes which report Dirichlet constraints by any of their four methods, a DOF is constrained by `constraints(p,gfs,cg)` exactly if it is
reported when each leaf space is asked about each element (`doVolume`), each boundary face (`doBoundary`), each processor face (`doProcessor`) and, once from the
side of the element with the larger number, each face between two elements (`doSkeleton`), there for the DOFs of both sides. Each constraint is a Dirichlet one. -/
theorem C221_asked (ap : Bool) (elements : List Elem) (element : Nat → Elem) (index : D → I) (p : Tree Param)
    (space : Tree (Leaf D F)) (cg₀ cg : Trafo I F) (R : Leaf D F → Report D) (ps : List (Param × Leaf D F))
    (hR : ∀ l ∈ space.leaves, Reports l.cons (R l)) (hps : pairs p space = some ps)
    (h : constraints ap elements element index p space cg₀ = some cg) :
    (∀ k, cg.Constrained k ↔ ∃ e ∈ elements, ∃ d, Reported ap element ps R e d ∧ index d = k) ∧
    (∀ k, cg.Constrained k → cg.Dirichlet k) ∧ cg.nonDirichlet = false := by
  unfold constraints at h
  rw [hps] at h
  cases h
  have hls := pairs_snd p space ps hps
  have hm := fun k r => userElements (I := I) R ps space.leaves hls hR ap elements element index k r
  obtain ⟨h1, h2, _, _, h5, _, _⟩ := C15_contributions (elements.flatMap (visitElement ap element index ps space.leaves)) cg₀
  have hc : ∀ k, (assemble (elements.flatMap (visitElement ap element index ps space.leaves)) cg₀).Constrained k ↔
      ∃ e ∈ elements, ∃ d, Reported ap element ps R e d ∧ index d = k := by
    intro k
    rw [h2]
    constructor
    · rintro ⟨c, hc, d, row, hd, hk⟩
      exact ((hm k row).1 ⟨c, hc, d, hd, hk⟩).2
    · intro h
      obtain ⟨c, hc, d, hd, hk⟩ := (hm k []).2 ⟨rfl, h⟩
      exact ⟨c, hc, d, [], hd, hk⟩
  refine ⟨hc, fun k hk => ?_, ?_⟩
  · rw [h1]
    obtain ⟨c, hc', d, hd, hk'⟩ := (hm k []).2 ⟨rfl, (hc k).1 hk⟩
    exact ⟨c, hc', d, hd, hk'⟩
  · by_contra hne
    have ht : (assemble (elements.flatMap (visitElement ap element index ps space.leaves)) cg₀).nonDirichlet = true := by
      simpa using hne
    obtain ⟨k, j, w, c, hc', d, row, hr, hk, e, he, _⟩ := h5 ht
    have := ((hm k row).1 ⟨c, hc', d, hr, hk⟩).1
    rw [this] at he
    simp at he

end C221

/-- A constraints class which constrains, on a face between two elements, the first DOF of the inside and the first one of the outside. -/
def exInterfaceCons : Cons DofName Int where
  doVolume := false
  doBoundary := false
  doProcessor := false
  doSkeleton := true
  volume := fun _ _ _ cl => cl
  boundary := fun _ _ _ _ cl => cl
  processor := fun _ _ _ cl => cl
  skeleton := fun e _ f _ _ cl cl' => (cl ++ [((0, 2, e.sub 2 0, 0), [])], cl' ++ [((0, 2, f.sub 2 0, 0), [])])

/-- What it reports. -/
def exInterfaceReport : Report DofName where
  volume := fun _ _ _ _ => False
  boundary := fun _ _ _ _ _ => False
  processor := fun _ _ _ _ => False
  inside := fun e _ _ _ _ d => d = (0, 2, e.sub 2 0, 0)
  outside := fun _ _ f _ _ d => d = (0, 2, f.sub 2 0, 0)

/-- The class reports what it says, so that `C221_asked` applies to spaces with it. -/
example : Reports exInterfaceCons exInterfaceReport where
  volume := fun p e lfs cl S h d r => by
    rw [show exInterfaceCons.volume p e lfs cl = cl from rfl, h d r]
    simp [exInterfaceReport]
  boundary := fun p e i lfs cl S h d r => by
    rw [show exInterfaceCons.boundary p e i lfs cl = cl from rfl, h d r]
    simp [exInterfaceReport]
  processor := fun e i lfs cl S h d r => by
    rw [show exInterfaceCons.processor e i lfs cl = cl from rfl, h d r]
    simp [exInterfaceReport]
  skeleton := fun e i f lfs lfs' cl cl' S S' h h' => by
    constructor
    · intro d r
      simp only [exInterfaceCons, exInterfaceReport, List.mem_append, List.mem_singleton, h d r, Prod.mk.injEq]
      constructor
      · rintro (⟨a, b⟩ | ⟨a, b⟩)
        · exact ⟨a, .inl b⟩
        · exact ⟨b, .inr a⟩
      · rintro ⟨a, b | b⟩
        · exact .inl ⟨a, b⟩
        · exact .inr ⟨b, a⟩
    · intro d r
      simp only [exInterfaceCons, exInterfaceReport, List.mem_append, List.mem_singleton, h' d r, Prod.mk.injEq]
      constructor
      · rintro (⟨a, b⟩ | ⟨a, b⟩)
        · exact ⟨a, .inl b⟩
        · exact ⟨b, .inr a⟩
      · rintro ⟨a, b | b⟩
        · exact .inl ⟨a, b⟩
        · exact .inr ⟨b, a⟩

/-- On the two triangles the common edge is treated once, from the second triangle: vertex 0 of the first triangle and vertex 1, the first one of the second triangle,
are constrained. -/
example : ((constraints true (exElements .interior) (exElement .interior) id (.leaf exParam)
      (.leaf (exLeaf 0 exInterfaceCons)) Trafo.empty).map fun cg => cg.rows.map Prod.fst)
    = some [(0, 2, (0, 0), 0), (0, 2, (0, 1), 0)] := by decide +kernel

end Verif
