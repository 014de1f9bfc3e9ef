import Verif.Model.PclRegistration

/-!
What a user of `RegistrationPCL` expects: an alignment is computed from the clouds and covariances handed over last and from the current
parameters, as a freshly built object would do.
-/

namespace Verif.Spec

open Verif.Pcl

/-- What the user has said about one cloud: the cloud, the covariances handed over for it (if any); and what has happened to it since:
whether an alignment was run with it, and whether a VGICP alignment was. -/
structure Side (C : Type) where
  cloud : Nat
  user : Option (List C)
  used : Bool
  mapped : Bool

/-- The history of an object as far as the user can see it. -/
structure History (C : Type) where
  source : Option (Side C)
  target : Option (Side C)
  voxelised : Bool

variable {P Tree C Map K G : Type}

def History.init : History C := ⟨none, none, false⟩

/-- A cloud is handed over: the same one again changes nothing, another one replaces it, a rejected one only makes the object forget
what it knew about the present cloud. -/
def giveCloud (E : Env P Tree C Map K) (cloud : Option Nat) (s : Option (Side C)) : Option (Side C) :=
  if s.map Side.cloud = cloud then s
  else
    match cloud with
    | none => s
    | some c => if E.accepts c then some ⟨c, none, false, false⟩ else s.map fun s => ⟨s.cloud, none, false, false⟩

/-- Covariances are handed over; they must be as many as points. -/
def giveCovs (E : Env P Tree C Map K) (covs : List C) (s : Option (Side C)) : Option (Side C) :=
  s.map fun s => if covs.length = (E.heap s.cloud).length then { s with user := some covs } else s

/-- The effect of a call on the history. -/
def History.step (E : Env P Tree C Map K) (h : History C) : Op C K G → History C
  | .setInputSource c => { h with source := giveCloud E c h.source }
  | .setInputTarget c => { h with target := giveCloud E c h.target }
  | .setSourceCovariances covs => { h with source := giveCovs E covs h.source }
  | .setTargetCovariances covs => { h with target := giveCovs E covs h.target }
  | .swapSourceAndTarget => { h with source := h.target, target := h.source }
  | .clearSource => { h with source := none }
  | .clearTarget => { h with target := none }
  | .setRegistrationType t => { h with voxelised := if t = "VGICP" then true else if t = "GICP" then false else h.voxelised }
  | .align aliased _ =>
    match h.source, h.target with
    | some s, some t =>
      if aliased then h
      else { h with source := some { s with used := true, mapped := s.mapped || h.voxelised }, target := some { t with used := true, mapped := t.mapped || h.voxelised } }
    | _, _ => h
  | _ => h

/-- The history after some calls. -/
def history (E : Env P Tree C Map K) (ops : List (Op C K G)) : History C := ops.foldl (History.step E) History.init

/-- Covariances of a cloud under the current parameters. -/
def covsOf (E : Env P Tree C Map K) (k : Int) (s : Side C) : List C := s.user.getD (E.estimate (E.heap s.cloud) (E.mkTree (E.heap s.cloud)) k)

/-- The registration an alignment must run: none without clouds. -/
def expected [Mul K] (E : Env P Tree C Map K) (p : Params K) (h : History C) (guess : G) : Option (Call P Tree C Map K G) :=
  match h.source, h.target with
  | some s, some t => some
    { rotationEps := p.rotationEps, translationEps := p.translationEps, numThreads := p.numThreads, maxDistSq := p.corrDist * p.corrDist,
      verbose := p.verbose, maxIterations := p.maxIterations,
      target := if p.type = "VGICP" then .voxelmap (E.mkMap p.voxelResolution (E.heap t.cloud) (covsOf E p.kCorrespondences t))
        else .cloud (E.heap t.cloud) (covsOf E p.kCorrespondences t) (E.mkTree (E.heap t.cloud))
      sourcePoints := E.heap s.cloud, sourceCovs := covsOf E p.kCorrespondences s, guess := guess }
  | _, _ => none

end Verif.Spec
