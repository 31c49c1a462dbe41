import Verif.Model.CCFVAssembly
import Verif.Model.OneStepMethod
/-
Model of the suggestion of time steps for explicit methods: the bookkeeping of the finite volume operator and the instationary grid operator.
Sources: dune/pdelab/localoperator/convectiondiffusionccfv.hh:272-292, 495-522, dune/pdelab/gridoperator/onestep.hh:265-272,
dune/pdelab/localoperator/idefault.hh:194-197.
-/
namespace Verif.TimeStepSize

open LocalOp LocalOp.CCFV GridAssembler

variable {K P Q : Type} [Field K] [LinearOrder K] {d : Nat}

/-- convectiondiffusionccfv.hh:520-522  the members of the operator. None of them is initialised by the constructor, and `cellinflux` is never
assigned. -/
structure FV (K : Type) where
  firstStage : Bool
  dtmin : K
  cellinflux : K

/-- convectiondiffusionccfv.hh:497-505  `preStage`. -/
def FV.preStage (s : FV K) (r : Nat) : FV K :=
  if r = 1 then { s with firstStage := true, dtmin := 10 ^ 100 } else { s with firstStage := false }

/-- convectiondiffusionccfv.hh:274-292  `alpha_volume_post_skeleton`. -/
def FV.postSkeleton (pb : Problem K P Q d) (s : FV K) (c : Nat) : FV K :=
  if !s.firstStage then s
  else { s with dtmin := min s.dtmin (pb.capacity c (pb.cellGeo c).center * (pb.cellGeo c).volume / (s.cellinflux + 1 / 10 ^ 30)) }

/-- default/assembler.hh:84-279 with the residual engine: the effect of an assembly on the members of the operator. Only the post-skeleton term
changes them; the engine calls it if `doAlphaVolumePostSkeleton` is set, which it is not (convectiondiffusionccfv.hh:53-58). -/
def FV.assembled (allPartitions : Bool) (pb : Problem K P Q d) (s : FV K) : FV K :=
  (assemble engine allPartitions pb.cells).foldl (fun s e => if e.kind = .assembleUVVolumePostSkeleton then s.postSkeleton pb e.cell else s) s

/-- convectiondiffusionccfv.hh:513-516  `suggestTimestep`. -/
def FV.suggestTimestep (s : FV K) (_dt : K) : K := s.dtmin

/-- gridoperator/onestep.hh:266-272  `suggestTimestep` of the instationary grid operator on the process `p`. `local0`, `local1` are the answers of
the two local operators on each of the processes. -/
def suggest (procs : Nat) (local0 local1 : Nat → K) (p : Nat) : K :=
  let suggested := min (local0 p) (local1 p)
  if procs > 1 then (List.range procs).foldl (fun m q => min m (min (local0 q) (local1 q))) suggested else suggested

end Verif.TimeStepSize
