import Verif.Proofs.HyperbolicTotals
import Verif.Proofs.Tested
import Verif.Spec.HyperbolicMesh
import Mathlib.Algebra.Order.BigOperators.Group.List
set_option linter.unusedSectionVars false
/- Lemmas for C233. -/
namespace Verif.HyperbolicMesh
open LocalOp LocalOp.Spec LocalOp.Hyperbolic Matrix Tested

variable {K P Q : Type} [Field K] [LinearOrder K] [IsStrictOrderedRing K] {d n m N : Nat}

theorem mapM_some {α β : Type} (f : α → Option β) (g : α → β) : ∀ l : List α, (∀ x ∈ l, f x = some (g x)) → l.mapM f = some (l.map g) := by
  intro l
  induction l with
  | nil => intro _; rfl
  | cons a l ih =>
    intro h
    rw [List.mapM_cons, h a (List.mem_cons_self ..), ih fun x hx => h x (List.mem_cons_of_mem _ hx)]
    rfl

theorem tested_map' {α ι : Type} [DecidableEq ι] [Fintype ι] [DecidableEq α] [Fintype α] (l : List (α × K)) (g : α → ι) (y : ι → K) :
    tested (l.map fun c => (g c.1, c.2)) y = tested l (fun a => y (g a)) := by
  rw [tested_eq, tested_eq, List.map_map]; rfl

theorem tested_flatten {ι : Type} [DecidableEq ι] [Fintype ι] (l : List (List (ι × K))) (y : ι → K) :
    tested l.flatten y = (l.map fun a => tested a y).sum := by
  have := tested_flatMap l id y
  simpa [List.flatMap_id] using this

/-- The residual of a mesh, tested. -/
theorem overMesh_tested (mesh : Mesh K P Q d m n N) (v : Fin N → Calls (Fin m × Fin n) K)
    (s : InnerFace K P Q d N → Calls ((Fin m × Fin n) ⊕ (Fin m × Fin n)) K) (b : BoundaryFace K P Q d m N → Calls (Fin m × Fin n) K)
    (vo : Fin N → Option (Calls (Fin m × Fin n) K)) (so : InnerFace K P Q d N → Option (Calls ((Fin m × Fin n) ⊕ (Fin m × Fin n)) K))
    (bo : BoundaryFace K P Q d m N → Option (Calls (Fin m × Fin n) K))
    (hv : ∀ c, vo c = some (v c)) (hs : ∀ F ∈ mesh.inner, so F = some (s F)) (hb : ∀ F ∈ mesh.boundary, bo F = some (b F))
    (y : Fin N × Fin m × Fin n → K) :
    ∃ calls, overMesh mesh vo so bo = some calls ∧ tested calls y =
      ∑ c, tested (v c) (fun i => y (c, i)) +
      (mesh.inner.map fun F => tested (s F) (Sum.elim (fun i => y (F.inside, i)) fun i => y (F.outside, i))).sum +
      (mesh.boundary.map fun F => tested (b F) fun i => y (F.inside, i)).sum := by
  refine ⟨((List.finRange N).map fun c => place c (v c)).flatten ++ (mesh.inner.map fun F => placeFace F.inside F.outside (s F)).flatten ++
    (mesh.boundary.map fun F => place F.inside (b F)).flatten, ?_, ?_⟩
  · unfold overMesh
    rw [mapM_some _ (fun c => place c (v c)) _ (fun c _ => by rw [hv c]; rfl),
      mapM_some _ (fun F => placeFace F.inside F.outside (s F)) _ (fun F hF => by rw [hs F hF]; rfl),
      mapM_some _ (fun F => place F.inside (b F)) _ (fun F hF => by rw [hb F hF]; rfl)]
    rfl
  · rw [tested_append, tested_append, tested_flatten, tested_flatten, tested_flatten, List.map_map, List.map_map, List.map_map]
    congr 1
    · congr 1
      · rw [← List.ofFn_eq_map, List.sum_ofFn]
        exact Finset.sum_congr rfl fun c _ => tested_map' _ _ _
      · congr 1
        refine List.map_congr_left fun F _ => ?_
        refine (tested_map' (s F) (Sum.elim (fun i => (F.inside, i)) fun i => (F.outside, i)) y).trans ?_
        congr 1
        funext i
        cases i <;> rfl
    · congr 1
      exact List.map_congr_left fun F _ => tested_map' _ _ _

theorem quadrature_nonneg (rule : List (P × K)) (ie f : P → K) (h : ∀ q ∈ rule, 0 ≤ q.2 * ie q.1) (hf : ∀ p, 0 ≤ f p) :
    0 ≤ quadrature rule ie f := by
  unfold quadrature
  refine List.sum_nonneg fun a ha => ?_
  obtain ⟨q, hq, rfl⟩ := List.mem_map.mp ha
  exact mul_nonneg (hf _) (h q hq)

theorem quadrature_sub (rule : List (P × K)) (ie : P → K) (f g : P → K) :
    quadrature rule ie (fun p => f p - g p) = quadrature rule ie f - quadrature rule ie g := by
  unfold quadrature
  induction rule with
  | nil => simp
  | cons q rule ih => simp only [List.map_cons, List.sum_cons, ih]; ring

/-- The product with weights. -/
def weighted (e : Fin m → K) (u v : Fin m → K) : K := ∑ i, e i * u i * v i

/-- The bilinear form of the flux in a coordinate direction. -/
def part (e : Fin m → K) (T : Fin d → Fin m → Fin m → K) (j : Fin d) (u v : Fin m → K) : K := ∑ i, ∑ l, e i * T j i l * u l * v i

theorem part_symm {e : Fin m → K} {T : Fin d → Fin m → Fin m → K} (h : ∀ j i l, e i * T j i l = e l * T j l i) (j : Fin d) (u v : Fin m → K) :
    part e T j u v = part e T j v u := by
  unfold part
  rw [Finset.sum_comm]
  refine Finset.sum_congr rfl fun i _ => Finset.sum_congr rfl fun l _ => ?_
  rw [h]; ring

theorem part_fem {e : Fin m → K} {T : Fin d → Fin m → Fin m → K} (j : Fin d) (phi : P → Fin n → K) (x : Fin m × Fin n → K) (p : P) (v : Fin m → K) :
    part e T j (femFunction phi x p) v = ∑ k, phi p k * part e T j (fun i => x (i, k)) v := by
  unfold part femFunction
  simp only [Finset.mul_sum, Finset.sum_mul]
  rw [Finset.sum_congr rfl fun i _ => Finset.sum_comm, Finset.sum_comm]
  refine Finset.sum_congr rfl fun k _ => ?_
  exact Finset.sum_congr rfl fun i _ => Finset.sum_congr rfl fun l _ => by ring

theorem weighted_flux {e : Fin m → K} {T : Fin d → Fin m → Fin m → K} {A : (Fin d → K) → (Fin m → K) → Fin m → K}
    (hA : ∀ v u i, A v u i = ∑ j, v j * ∑ l, T j i l * u l) (ν : Fin d → K) (u v : Fin m → K) :
    weighted e (A ν u) v = ∑ j, ν j * part e T j u v := by
  unfold weighted part
  simp only [hA, Finset.mul_sum, Finset.sum_mul]
  rw [Finset.sum_comm]
  exact Finset.sum_congr rfl fun j _ => Finset.sum_congr rfl fun i _ => Finset.sum_congr rfl fun l _ => by ring

/-- The energy flux of a finite element function, expanded. -/
theorem weighted_flux_fem {e : Fin m → K} {T : Fin d → Fin m → Fin m → K} (hT : ∀ j i l, e i * T j i l = e l * T j l i)
    {A : (Fin d → K) → (Fin m → K) → Fin m → K}
    (hA : ∀ v u i, A v u i = ∑ j, v j * ∑ l, T j i l * u l) (ν : Fin d → K) (phi : P → Fin n → K) (x : Fin m × Fin n → K) (p : P) :
    weighted e (A ν (femFunction phi x p)) (femFunction phi x p) =
      ∑ k, ∑ l, ∑ j, part e T j (fun i => x (i, k)) (fun i => x (i, l)) * (phi p k * phi p l * ν j) := by
  rw [weighted_flux hA]
  simp only [part_fem, part_symm hT _ _ (femFunction phi x p), Finset.mul_sum]
  rw [Finset.sum_comm]
  refine Finset.sum_congr rfl fun k _ => ?_
  rw [Finset.sum_comm]
  refine Finset.sum_congr rfl fun l _ => Finset.sum_congr rfl fun j _ => ?_
  rw [part_symm hT j (fun i => x (i, l))]
  ring

theorem tested_prod (calls : Calls (Fin m × Fin n) K) (y : Fin m × Fin n → K) : tested calls y = ∑ k, ∑ i, y (i, k) * total calls (i, k) := by
  unfold tested
  rw [Fintype.sum_prod_type, Finset.sum_comm]

/-- The volume term, tested with the weighted function: minus half of the symmetric form of the divergence theorem. -/
theorem volume_tested {e : Fin m → K} {T : Fin d → Fin m → Fin m → K} (hT : ∀ j i l, e i * T j i l = e l * T j l i)
    {A : (Fin d → K) → (Fin m → K) → Fin m → K}
    (hA : ∀ v u i, A v u i = ∑ j, v j * ∑ l, T j i l * u l) (rule : List (P × K)) (ie : P → K) (phi : P → Fin n → K)
    (grad : P → Fin n → Fin d → K) (x : Fin m × Fin n → K) (calls : Calls (Fin m × Fin n) K) (rest : Fin m → Fin n → P → K)
    (h : ∀ i k, total calls (i, k) = quadrature rule ie fun p => -A (grad p k) (femFunction phi x p) i + rest i k p) :
    tested calls (fun i => e i.1 * x i) =
      -(∑ k, ∑ l, ∑ j, part e T j (fun i => x (i, k)) (fun i => x (i, l)) *
        quadrature rule ie fun p => phi p k * grad p l j + phi p l * grad p k j) / 2 +
      quadrature rule ie (fun p => ∑ k, ∑ i, e i * x (i, k) * rest i k p) := by
  have h1 : tested calls (fun i => e i.1 * x i) = quadrature rule ie (fun p =>
      -∑ k, weighted e (A (grad p k) (femFunction phi x p)) (fun i => x (i, k))) +
      quadrature rule ie (fun p => ∑ k, ∑ i, e i * x (i, k) * rest i k p) := by
    rw [tested_prod, ← quadrature_add]
    simp only [h, ← quadrature_smul]
    rw [Finset.sum_congr rfl fun k _ => (quadrature_sum _ rule ie _).symm, ← quadrature_sum]
    congr 1
    funext p
    rw [← Finset.sum_neg_distrib, ← Finset.sum_add_distrib]
    refine Finset.sum_congr rfl fun k _ => ?_
    unfold weighted
    rw [← Finset.sum_neg_distrib, ← Finset.sum_add_distrib]
    exact Finset.sum_congr rfl fun i _ => by ring
  rw [h1]
  congr 1
  have h2 : ∀ p, -∑ k, weighted e (A (grad p k) (femFunction phi x p)) (fun i => x (i, k)) =
      ∑ k, ∑ l, ∑ j, (-(part e T j (fun i => x (i, k)) (fun i => x (i, l))) / 2) * (phi p k * grad p l j + phi p l * grad p k j) := by
    intro p
    have h3 : ∑ k, weighted e (A (grad p k) (femFunction phi x p)) (fun i => x (i, k)) =
        ∑ k, ∑ l, ∑ j, part e T j (fun i => x (i, k)) (fun i => x (i, l)) * (phi p l * grad p k j) := by
      refine Finset.sum_congr rfl fun k _ => ?_
      rw [weighted_flux hA]
      simp only [part_fem, Finset.mul_sum]
      rw [Finset.sum_comm]
      refine Finset.sum_congr rfl fun l _ => Finset.sum_congr rfl fun j _ => ?_
      rw [part_symm hT j (fun i => x (i, l))]
      ring
    have h4 : ∑ k, ∑ l, ∑ j, part e T j (fun i => x (i, k)) (fun i => x (i, l)) * (phi p l * grad p k j) =
        ∑ k, ∑ l, ∑ j, part e T j (fun i => x (i, k)) (fun i => x (i, l)) * (phi p k * grad p l j) := by
      rw [Finset.sum_comm]
      refine Finset.sum_congr rfl fun k _ => Finset.sum_congr rfl fun l _ => Finset.sum_congr rfl fun j _ => ?_
      rw [part_symm hT j (fun i => x (i, l))]
    have h5 : ∑ k, ∑ l, ∑ j, (-(part e T j (fun i => x (i, k)) (fun i => x (i, l))) / 2) * (phi p k * grad p l j + phi p l * grad p k j) =
        (-1/2) * (∑ k, ∑ l, ∑ j, part e T j (fun i => x (i, k)) (fun i => x (i, l)) * (phi p k * grad p l j)) +
        (-1/2) * (∑ k, ∑ l, ∑ j, part e T j (fun i => x (i, k)) (fun i => x (i, l)) * (phi p l * grad p k j)) := by
      simp only [Finset.mul_sum, ← Finset.sum_add_distrib]
      exact Finset.sum_congr rfl fun k _ => Finset.sum_congr rfl fun l _ => Finset.sum_congr rfl fun j _ => by ring
    rw [h5, ← h4, h3]
    ring
  simp only [h2]
  rw [quadrature_sum, neg_div, Finset.sum_div, ← Finset.sum_neg_distrib]
  refine Finset.sum_congr rfl fun k _ => ?_
  rw [quadrature_sum, Finset.sum_div, ← Finset.sum_neg_distrib]
  refine Finset.sum_congr rfl fun l _ => ?_
  rw [quadrature_sum, Finset.sum_div, ← Finset.sum_neg_distrib]
  refine Finset.sum_congr rfl fun j _ => ?_
  rw [quadrature_smul]
  ring

/-- The energy flux through a face, integrated. -/
theorem face_energy {e : Fin m → K} {T : Fin d → Fin m → Fin m → K} (hT : ∀ j i l, e i * T j i l = e l * T j l i)
    {A : (Fin d → K) → (Fin m → K) → Fin m → K}
    (hA : ∀ v u i, A v u i = ∑ j, v j * ∑ l, T j i l * u l) (rule : List (Q × K)) (ie : Q → K) (inCell : Q → P) (phi : P → Fin n → K)
    (ν : Fin d → K) (x : Fin m × Fin n → K) :
    ∑ k, ∑ l, ∑ j, part e T j (fun i => x (i, k)) (fun i => x (i, l)) *
        (quadrature rule ie fun q => phi (inCell q) k * phi (inCell q) l * ν j) =
      quadrature rule ie fun q => weighted e (A ν (femFunction phi x (inCell q))) (femFunction phi x (inCell q)) := by
  simp only [weighted_flux_fem hT hA, quadrature_sum, quadrature_smul]

theorem face_tested {e : Fin m → K} (rule : List (Q × K)) (ie : Q → K) (phi : Q → Fin n → K) (f : Q → Fin m → K) (x : Fin m × Fin n → K)
    (t : Fin m × Fin n → K) (h : ∀ i k, t (i, k) = quadrature rule ie fun q => f q i * phi q k) :
    ∑ ik, e ik.1 * x ik * t ik = quadrature rule ie fun q => weighted e (f q) (femFunction phi x q) := by
  rw [Fintype.sum_prod_type]
  simp only [h, ← quadrature_smul]
  rw [Finset.sum_congr rfl fun k _ => (quadrature_sum _ rule ie _).symm, ← quadrature_sum]
  congr 1
  funext q
  unfold weighted femFunction
  refine Finset.sum_congr rfl fun i _ => ?_
  rw [Finset.mul_sum]
  exact Finset.sum_congr rfl fun k _ => by ring

theorem weighted_sub_right (e : Fin m → K) (u v w : Fin m → K) : weighted e u (v - w) = weighted e u v - weighted e u w := by
  unfold weighted
  rw [← Finset.sum_sub_distrib]
  exact Finset.sum_congr rfl fun i _ => by rw [Pi.sub_apply]; ring

theorem weighted_neg_left (e : Fin m → K) (u v : Fin m → K) : weighted e (fun i => -u i) v = -weighted e u v := by
  unfold weighted
  rw [← Finset.sum_neg_distrib]
  exact Finset.sum_congr rfl fun i _ => by ring

theorem sum_list_comm {α : Type} {s : Nat} (l : List α) (f : Fin s → α → K) :
    ∑ c, (l.map (f c)).sum = (l.map fun a => ∑ c, f c a).sum := by
  induction l with
  | nil => simp
  | cons a l ih => simp [Finset.sum_add_distrib, ih]

theorem mul_list_sum {α : Type} (l : List α) (a : K) (f : α → K) : a * (l.map f).sum = (l.map fun b => a * f b).sum := by
  induction l with
  | nil => simp
  | cons b l ih => simp [mul_add, ih]

theorem list_sum_add {α : Type} (l : List α) (f g : α → K) : (l.map fun a => f a + g a).sum = (l.map f).sum + (l.map g).sum := by
  induction l with
  | nil => simp
  | cons b l ih => simp only [List.map_cons, List.sum_cons, ih]; ring

/-- The residual of a mesh takes energy away, or leaves it unchanged. -/
theorem dissipative (o : Int) (mesh : Mesh K P Q d m n N) (hp : ProperMesh mesh) (hD : DivergenceTheorem o mesh)
    {e : Fin m → K} {T : Fin d → Fin m → Fin m → K} (hT : ∀ j i l, e i * T j i l = e l * T j l i)
    {A : (Fin d → K) → (Fin m → K) → Fin m → K}
    (hA : ∀ v u i, A v u i = ∑ j, v j * ∑ l, T j i l * u l)
    (flux : (Fin d → K) → (Fin m → K) → (Fin m → K) → Fin m → K)
    (hF : ∀ ν : Fin d → K, ν ⬝ᵥ ν = 1 → ∀ uS uN, weighted e (A ν uS) uS / 2 - weighted e (A ν uN) uN / 2 ≤ weighted e (flux ν uS uN) (uS - uN))
    (hB : ∀ F ∈ mesh.boundary, Passive (weighted e) A flux F)
    (x : Fin N × Fin m × Fin n → K) (rest : Fin N → Fin m → Fin n → P → K)
    (hrest : ∀ c p, 0 ≤ ∑ k, ∑ i, e i * x (c, i, k) * rest c i k p)
    (vo : Fin N → Option (Calls (Fin m × Fin n) K)) (so : InnerFace K P Q d N → Option (Calls ((Fin m × Fin n) ⊕ (Fin m × Fin n)) K))
    (bo : BoundaryFace K P Q d m N → Option (Calls (Fin m × Fin n) K))
    (hv : ∀ c, ∃ calls, vo c = some calls ∧ ∀ i k, total calls (i, k) = cellIntegral o mesh c fun p =>
      -A (globalGradient (mesh.geo c) (mesh.lfs c) p k) (cellFunction mesh x c p) i + rest c i k p)
    (hs : ∀ F, F ∈ mesh.inner → ∃ calls, so F = some calls ∧
      (∀ i k, total calls (.inl (i, k)) = faceIntegral o mesh F fun q =>
        flux F.geo.centerUnitOuterNormal (cellFunction mesh x F.inside (F.geo.inInside q)) (cellFunction mesh x F.outside (F.geo.inOutside q)) i *
          (mesh.lfs F.inside).phi (F.geo.inInside q) k) ∧
      ∀ i k, total calls (.inr (i, k)) = faceIntegral o mesh F fun q =>
        -flux F.geo.centerUnitOuterNormal (cellFunction mesh x F.inside (F.geo.inInside q)) (cellFunction mesh x F.outside (F.geo.inOutside q)) i *
          (mesh.lfs F.outside).phi (F.geo.inOutside q) k)
    (hb : ∀ F, F ∈ mesh.boundary → ∃ calls, bo F = some calls ∧
      ∀ i k, total calls (i, k) = boundaryIntegral o mesh F fun q =>
        flux F.geo.centerUnitOuterNormal (cellFunction mesh x F.inside (F.geo.inInside q))
          (F.g q (cellFunction mesh x F.inside (F.geo.inInside q))) i * (mesh.lfs F.inside).phi (F.geo.inInside q) k) :
    ∃ calls, overMesh mesh vo so bo = some calls ∧ 0 ≤ tested calls fun i => e i.2.1 * x i := by
  choose v hv1 hv2 using hv
  have hs' : ∀ F, ∃ calls : Calls ((Fin m × Fin n) ⊕ (Fin m × Fin n)) K, F ∈ mesh.inner → so F = some calls ∧
      (∀ i k, total calls (.inl (i, k)) = faceIntegral o mesh F fun q =>
        flux F.geo.centerUnitOuterNormal (cellFunction mesh x F.inside (F.geo.inInside q)) (cellFunction mesh x F.outside (F.geo.inOutside q)) i *
          (mesh.lfs F.inside).phi (F.geo.inInside q) k) ∧
      ∀ i k, total calls (.inr (i, k)) = faceIntegral o mesh F fun q =>
        -flux F.geo.centerUnitOuterNormal (cellFunction mesh x F.inside (F.geo.inInside q)) (cellFunction mesh x F.outside (F.geo.inOutside q)) i *
          (mesh.lfs F.outside).phi (F.geo.inOutside q) k := by
    intro F
    by_cases h : F ∈ mesh.inner
    · obtain ⟨c, hc⟩ := hs F h
      exact ⟨c, fun _ => hc⟩
    · exact ⟨[], fun h' => absurd h' h⟩
  choose s hs1 using hs'
  have hb' : ∀ F, ∃ calls : Calls (Fin m × Fin n) K, F ∈ mesh.boundary → bo F = some calls ∧
      ∀ i k, total calls (i, k) = boundaryIntegral o mesh F fun q =>
        flux F.geo.centerUnitOuterNormal (cellFunction mesh x F.inside (F.geo.inInside q))
          (F.g q (cellFunction mesh x F.inside (F.geo.inInside q))) i * (mesh.lfs F.inside).phi (F.geo.inInside q) k := by
    intro F
    by_cases h : F ∈ mesh.boundary
    · obtain ⟨c, hc⟩ := hb F h
      exact ⟨c, fun _ => hc⟩
    · exact ⟨[], fun h' => absurd h' h⟩
  choose b hb1 using hb'
  obtain ⟨calls, h1, h2⟩ := overMesh_tested mesh v s b vo so bo hv1 (fun F hF' => (hs1 F hF').1) (fun F hF' => (hb1 F hF').1)
    fun i => e i.2.1 * x i
  refine ⟨calls, h1, ?_⟩
  rw [h2]
  -- the energy flux through an inner face of the traces inside and outside, and through a boundary face
  let eIn : InnerFace K P Q d N → K := fun F => faceIntegral o mesh F fun q =>
    weighted e (A F.geo.centerUnitOuterNormal (cellFunction mesh x F.inside (F.geo.inInside q))) (cellFunction mesh x F.inside (F.geo.inInside q))
  let eOut : InnerFace K P Q d N → K := fun F => faceIntegral o mesh F fun q =>
    weighted e (A F.geo.centerUnitOuterNormal (cellFunction mesh x F.outside (F.geo.inOutside q)))
      (cellFunction mesh x F.outside (F.geo.inOutside q))
  let eB : BoundaryFace K P Q d m N → K := fun F => boundaryIntegral o mesh F fun q =>
    weighted e (A F.geo.centerUnitOuterNormal (cellFunction mesh x F.inside (F.geo.inInside q))) (cellFunction mesh x F.inside (F.geo.inInside q))
  have hvol : ∀ c, tested (v c) (fun i => e i.1 * x (c, i)) =
      -((mesh.inner.map fun F => (if F.inside = c then eIn F else 0) - (if F.outside = c then eOut F else 0)).sum +
        (mesh.boundary.map fun F => if F.inside = c then eB F else 0).sum) / 2 +
      cellIntegral o mesh c (fun p => ∑ k, ∑ i, e i * x (c, i, k) * rest c i k p) := by
    intro c
    refine (volume_tested hT hA _ _ (mesh.lfs c).phi (fun p k => globalGradient (mesh.geo c) (mesh.lfs c) p k) (fun i => x (c, i)) (v c)
      (rest c) (hv2 c)).trans ?_
    congr 3
    have h3 : ∀ k l j, (quadrature ((mesh.geo c).quadratureRule (o + 2 * ↑(mesh.lfs c).order)) (mesh.geo c).integrationElement fun p =>
        (mesh.lfs c).phi p k * globalGradient (mesh.geo c) (mesh.lfs c) p l j +
        (mesh.lfs c).phi p l * globalGradient (mesh.geo c) (mesh.lfs c) p k j) = _ := fun k l j => hD c k l j
    simp only [h3, mul_add, Finset.sum_add_distrib, mul_list_sum, sum_list_comm]
    congr 1
    · congr 1
      refine List.map_congr_left fun F _ => ?_
      simp only [mul_sub, Finset.sum_sub_distrib]
      congr 1
      · by_cases hc : F.inside = c
        · subst hc
          simp only [if_true]
          exact face_energy hT hA _ _ F.geo.inInside (mesh.lfs F.inside).phi _ fun i => x (F.inside, i)
        · simp [hc]
      · by_cases hc : F.outside = c
        · subst hc
          simp only [if_true]
          exact face_energy hT hA _ _ F.geo.inOutside (mesh.lfs F.outside).phi _ fun i => x (F.outside, i)
        · simp [hc]
    · congr 1
      refine List.map_congr_left fun F _ => ?_
      by_cases hc : F.inside = c
      · subst hc
        simp only [if_true]
        exact face_energy hT hA _ _ F.geo.inInside (mesh.lfs F.inside).phi _ fun i => x (F.inside, i)
      · simp [hc]
  have hsum : ∑ c, tested (v c) (fun i => e i.1 * x (c, i)) =
      -((mesh.inner.map fun F => eIn F - eOut F).sum + (mesh.boundary.map eB).sum) / 2 +
      ∑ c, cellIntegral o mesh c (fun p => ∑ k, ∑ i, e i * x (c, i, k) * rest c i k p) := by
    simp only [hvol, Finset.sum_add_distrib, ← Finset.sum_div, Finset.sum_neg_distrib, sum_list_comm]
    simp
  rw [hsum]
  have hrest' : 0 ≤ ∑ c, cellIntegral o mesh c (fun p => ∑ k, ∑ i, e i * x (c, i, k) * rest c i k p) :=
    Finset.sum_nonneg fun c _ => quadrature_nonneg _ _ _ (hp.cells c _) (hrest c)
  have hinner : (mesh.inner.map fun F => (1/2) * (eIn F - eOut F)).sum ≤
      (mesh.inner.map fun F => tested (s F) (Sum.elim (fun i => e i.1 * x (F.inside, i)) fun i => e i.1 * x (F.outside, i))).sum := by
    refine List.sum_le_sum fun F hF' => ?_
    obtain ⟨-, t1, t2⟩ := hs1 F hF'
    have e1 : tested (s F) (Sum.elim (fun i => e i.1 * x (F.inside, i)) fun i => e i.1 * x (F.outside, i)) =
        faceIntegral o mesh F fun q => weighted e (flux F.geo.centerUnitOuterNormal (cellFunction mesh x F.inside (F.geo.inInside q))
          (cellFunction mesh x F.outside (F.geo.inOutside q)))
          (cellFunction mesh x F.inside (F.geo.inInside q) - cellFunction mesh x F.outside (F.geo.inOutside q)) := by
      unfold tested
      rw [Fintype.sum_sum_type]
      simp only [Sum.elim_inl, Sum.elim_inr, weighted_sub_right]
      rw [face_tested _ _ (fun q => (mesh.lfs F.inside).phi (F.geo.inInside q)) _ (fun i => x (F.inside, i)) (fun ik => total (s F) (.inl ik)) t1,
        face_tested _ _ (fun q => (mesh.lfs F.outside).phi (F.geo.inOutside q)) _ (fun i => x (F.outside, i)) (fun ik => total (s F) (.inr ik)) t2]
      simp only [weighted_neg_left]
      unfold faceIntegral
      rw [← quadrature_add]
      congr 1
      funext q
      rw [sub_eq_add_neg]
      rfl
    rw [e1]
    have e2 : (1/2) * (eIn F - eOut F) = faceIntegral o mesh F fun q =>
        weighted e (A F.geo.centerUnitOuterNormal (cellFunction mesh x F.inside (F.geo.inInside q))) (cellFunction mesh x F.inside (F.geo.inInside q)) / 2 -
        weighted e (A F.geo.centerUnitOuterNormal (cellFunction mesh x F.outside (F.geo.inOutside q)))
          (cellFunction mesh x F.outside (F.geo.inOutside q)) / 2 := by
      simp only [eIn, eOut, faceIntegral]
      rw [← quadrature_sub, ← quadrature_smul]
      congr 1
      funext q
      ring
    rw [e2, ← sub_nonneg]
    unfold faceIntegral
    rw [← quadrature_sub]
    exact quadrature_nonneg _ _ _ (hp.inner F hF' _) fun q => sub_nonneg.mpr (hF _ (hp.normals F hF') _ _)
  have hbound : (mesh.boundary.map fun F => (1/2) * eB F).sum ≤
      (mesh.boundary.map fun F => tested (b F) fun i => e i.1 * x (F.inside, i)).sum := by
    refine List.sum_le_sum fun F hF' => ?_
    obtain ⟨-, t1⟩ := hb1 F hF'
    have e1 : tested (b F) (fun i => e i.1 * x (F.inside, i)) =
        boundaryIntegral o mesh F fun q => weighted e (flux F.geo.centerUnitOuterNormal (cellFunction mesh x F.inside (F.geo.inInside q))
          (F.g q (cellFunction mesh x F.inside (F.geo.inInside q)))) (cellFunction mesh x F.inside (F.geo.inInside q)) :=
      face_tested _ _ (fun q => (mesh.lfs F.inside).phi (F.geo.inInside q)) _ (fun i => x (F.inside, i)) (fun ik => total (b F) ik) t1
    rw [e1]
    simp only [eB, boundaryIntegral]
    rw [← quadrature_smul, ← sub_nonneg, ← quadrature_sub]
    refine quadrature_nonneg _ _ _ (hp.boundary F hF' _) fun q => sub_nonneg.mpr ?_
    have := hB F hF' q (cellFunction mesh x F.inside (F.geo.inInside q))
    linarith
  rw [← mul_list_sum] at hinner hbound
  linarith

/-! ### Time stepping -/

theorem mass_tested (o : Int) (mesh : Mesh K P Q d m n N) (hp : ProperMesh mesh) (e : Fin m → K) (x y : Fin N × Fin m × Fin n → K) :
    ∃ r, Temporal.meshResidual o mesh x = some r ∧ tested r (fun i => e i.2.1 * y i) =
      ∑ c, cellIntegral o mesh c fun p => weighted e (cellFunction mesh x c p) (cellFunction mesh y c p) := by
  have hv : ∀ c, ∃ calls, Temporal.alphaVolume o (mesh.geo c) (mesh.lfs c) (fun i => x (c, i)) = some calls ∧
      ∀ i k, total calls (i, k) = cellIntegral o mesh c fun p => cellFunction mesh x c p i * (mesh.lfs c).phi p k := fun c =>
    ⟨_, withCache_some (by simpa using hp.order c) _, fun i k => total_quadrature _ _ _ _ _ fun p w => total_forComponents _ i k⟩
  choose v hv1 hv2 using hv
  obtain ⟨r, h1, h2⟩ := overMesh_tested mesh v (fun _ => []) (fun _ => []) _ (fun _ => some []) (fun _ => some []) hv1 (fun _ _ => rfl)
    (fun _ _ => rfl) fun i => e i.2.1 * y i
  refine ⟨r, h1, h2.trans ?_⟩
  simp only [tested_nil]
  rw [show (mesh.inner.map fun _ => (0 : K)).sum = 0 by simp, show (mesh.boundary.map fun _ => (0 : K)).sum = 0 by simp, add_zero, add_zero]
  refine Finset.sum_congr rfl fun c _ => ?_
  exact face_tested _ _ (mesh.lfs c).phi _ (fun i => y (c, i)) (fun ik => total (v c) ik) (hv2 c)

theorem tested_congr {ι : Type} [DecidableEq ι] [Fintype ι] (a b s : Calls ι K) (dt : K) (y : ι → K)
    (h : ∀ i, total a i - total b i + dt * total s i = 0) : tested a y - tested b y + dt * tested s y = 0 := by
  unfold tested
  rw [Finset.mul_sum, ← Finset.sum_sub_distrib, ← Finset.sum_add_distrib]
  refine Finset.sum_eq_zero fun i _ => ?_
  linear_combination y i * h i

theorem euler_energy (o : Int) (mesh : Mesh K P Q d m n N) (hp : ProperMesh mesh) (e : Fin m → K) (he : ∀ i, 0 ≤ e i)
    (R : (Fin N × Fin m × Fin n → K) → Option (Calls (Fin N × Fin m × Fin n) K))
    (hR : ∀ x, ∃ r, R x = some r ∧ 0 ≤ tested r fun i => e i.2.1 * x i) (dt : Nat → K) (hdt : ∀ k, 0 ≤ dt k)
    (x : Nat → Fin N × Fin m × Fin n → K) (h : ImplicitEuler (Temporal.meshResidual o mesh) R dt x) (k : Nat) :
    meshEnergy o mesh (weighted e) (x (k + 1)) ≤ meshEnergy o mesh (weighted e) (x k) := by
  obtain ⟨m0, m1, s, h0, h1, hs, heq⟩ := h k
  obtain ⟨r, hr1, hr2⟩ := hR (x (k + 1))
  obtain rfl : s = r := Option.some.inj (hs.symm.trans hr1)
  obtain ⟨a, ha1, ha2⟩ := mass_tested o mesh hp e (x k) (x (k + 1))
  obtain rfl : m0 = a := Option.some.inj (h0.symm.trans ha1)
  obtain ⟨b, hb1, hb2⟩ := mass_tested o mesh hp e (x (k + 1)) (x (k + 1))
  obtain rfl : m1 = b := Option.some.inj (h1.symm.trans hb1)
  have key := tested_congr m1 m0 s (dt k) (fun i => e i.2.1 * x (k + 1) i) heq
  rw [ha2, hb2] at key
  have hy : (∑ c, cellIntegral o mesh c fun p => weighted e (cellFunction mesh (x k) c p) (cellFunction mesh (x (k + 1)) c p)) ≤
      (1/2) * meshEnergy o mesh (weighted e) (x k) + (1/2) * meshEnergy o mesh (weighted e) (x (k + 1)) := by
    unfold meshEnergy
    rw [Finset.mul_sum, Finset.mul_sum, ← Finset.sum_add_distrib]
    refine Finset.sum_le_sum fun c _ => ?_
    unfold cellIntegral
    rw [← quadrature_smul, ← quadrature_smul, ← quadrature_add, ← sub_nonneg, ← quadrature_sub]
    refine quadrature_nonneg _ _ _ (hp.cells c _) fun p => ?_
    unfold weighted
    rw [Finset.mul_sum, Finset.mul_sum, ← Finset.sum_add_distrib, ← Finset.sum_sub_distrib]
    refine Finset.sum_nonneg fun i _ => ?_
    have := mul_nonneg (he i) (mul_self_nonneg (cellFunction mesh (x k) c p i - cellFunction mesh (x (k + 1)) c p i))
    linarith
  have hd := mul_nonneg (hdt k) hr2
  have e3 : meshEnergy o mesh (weighted e) (x (k + 1)) =
      ∑ c, cellIntegral o mesh c fun p => weighted e (cellFunction mesh (x (k + 1)) c p) (cellFunction mesh (x (k + 1)) c p) := rfl
  linarith

/-! ### Reflecting boundaries -/

theorem upwind_reflects {ι : Type} {A : (ι → K) → ι → K} {E : (ι → K) → (ι → K) → K} {R : (ι → K) → ι → K}
    (ha : ∀ u v, A (u + v) = A u + A v) (hs : ∀ (a : K) u, A (a • u) = a • A u)
    (Ea : ∀ u v w, E (u + v) w = E u w + E v w) (Es : ∀ (a : K) u v, E (a • u) v = a * E u v) (Ec : ∀ u v, E u v = E v u)
    (EA : ∀ u v, E (A u) v = E u (A v)) (E0 : ∀ u, 0 ≤ E u u) (ER : ∀ u v, E (R u) v = E u (R v)) (RR : ∀ u, R (R u) = u)
    (AR : ∀ u, A (R u) = -R (A u)) {c : K} (hc : 0 < c) (u : ι → K) :
    E (A u) u / 2 ≤ E ((1 / (2 * c)) • (A (A u) + c • A u) + (1 / (2 * c)) • (-A (A (R u)) + c • A (R u))) u := by
  have hn : ∀ v, A (-v) = -A v := fun v => by rw [← neg_one_smul K v, hs, neg_one_smul]
  have En : ∀ u v, E (-u) v = -E u v := fun u v => by rw [← neg_one_smul K u, Es, neg_one_mul]
  have Ea' : ∀ u v w, E w (u + v) = E w u + E w v := fun u v w => by rw [Ec, Ea, Ec u, Ec v]
  have En' : ∀ u v, E v (-u) = -E v u := fun u v => by rw [Ec, En, Ec u]
  have z : E (R (A u)) u = 0 := by
    have h1 : E (A (R u)) u = E (R (A u)) u := by rw [EA, Ec, ER]
    rw [AR, En] at h1
    linarith
  have pos := E0 (A u + R (A u))
  rw [Ea, Ea', Ea', ER (A u) (R (A u)), RR, Ec (R (A u)) (A u)] at pos
  simp only [Ea, Es, En, AR, hn, neg_neg]
  rw [EA (A u) u, z, ER (A (A u)) u, EA (A u) (R u), AR, En']
  have : 1 / (2 * c) * (E (A u) (A u) + c * E (A u) u) + 1 / (2 * c) * (-(-E (A u) (R (A u))) + c * -0) =
      E (A u) u / 2 + (E (A u) (A u) + E (A u) (R (A u))) / (2 * c) := by
    field_simp
    ring
  rw [this]
  exact le_add_of_nonneg_right (div_nonneg (by linarith) (by linarith))

end Verif.HyperbolicMesh
