import Verif.Props.VoxelContents

/-!
Concrete voxel maps over ℚ: premises of C11 - C18 are satisfiable, and the witnesses where the code violates C12
(horizon wrap-around) and C16 (duplicate neighbours with 27 cells).
-/

namespace Verif.Props

open Verif Verif.Voxel Verif.Knn Verif.Proofs

def idMat : Mat4 ℚ := fun i j => if i = j then 1 else 0

def mkPt (x y z : ℚ) : Pt ℚ := ⟨x, y, z, 1⟩
def mkSrc (x y z : ℚ) : SrcPt ℚ := ⟨mkPt x y z, ⟨0, 0, 1, 0⟩, fun _ _ => 0⟩

def exSetting : FlatSetting ℚ := ⟨1 / 100, 10, false, false⟩

/-- Three points in two cells. -/
def exCalls : List (List (SrcPt ℚ) × Mat4 ℚ) :=
  [([mkSrc (1/2) (1/2) (1/2), mkSrc (3/4) (1/2) (1/2)], idMat), ([mkSrc (-(1/2)) 0 0], idMat)]

theorem exCalls_defined : ∀ call ∈ exCalls, ∀ s ∈ call.1, Spec.CellDefined (1 / (1 : ℚ)) (mulPt call.2 s.pt) := by
  unfold Spec.CellDefined; decide +kernel

/-- The example history runs and leaves two voxels. -/
example : (insertCalls (flatContents exSetting) (userMap 1 100 10 [(0, 0, 0)]) exCalls).map
    (fun m => (m.flat.map (fun v => (v.1, v.2.points)))) =
    .ok [(⟨0, (0, 0, 0)⟩, [mkPt (1/2) (1/2) (1/2), mkPt (3/4) (1/2) (1/2)]), (⟨1, (-1, 0, 0)⟩, [mkPt (-(1/2)) 0 0])] := by
  decide +kernel

/-- Premises of C11/C12/C17/C18 hold for it. -/
example : ∃ m, insertCalls (flatContents exSetting) (userMap 1 100 10 [(0, 0, 0)]) exCalls = .ok m :=
  C11_insert_defined _ 1 100 10 _ (by decide) exCalls (by decide) exCalls_defined

/-- A history with operations of every kind for C11. -/
example : ((runOps (flatContents exSetting) (VoxelMap.new 1)
    [.setOffsets 7, .setHorizon 0, .setCycle 1, .insert [mkSrc 1 2 3] idMat, .setHorizon 5, .insert [mkSrc 1 2 3, mkSrc 5 5 5] idMat]).map
      (fun m => (m.table.length, m.flat.length))) = .ok (2, 2) := by
  decide +kernel

/-- Premises of C12_one_call: the map after the first call of the example, second call. -/
example : ∃ m, insertCalls (flatContents exSetting) (userMap 1 100 10 [(0, 0, 0)]) (exCalls.take 1) = .ok m ∧ MapInv m ∧
    m.lruCounter + m.lruHorizon + 1 < 2 ^ 64 := by
  obtain ⟨m, h1, h2, _, a2, _, _, a5, _⟩ := insertCalls_ok (flatContents exSetting) (exCalls.take 1) (userMap 1 100 10 [(0, 0, 0)])
    (userMap_inv 1 100 10 (by decide) _) (by decide) (fun call hc => exCalls_defined call (List.mem_of_mem_take hc))
  refine ⟨m, h1, h2, ?_⟩
  rw [a2, a5]
  decide

/-- Eviction in action (C12): horizon 0, cycle 1 keeps only what the current call touches -- and not even that. Horizon 1
keeps exactly the cells of the last call. -/
example : ((insertCalls (flatContents exSetting) (userMap 1 0 1 [(0, 0, 0)]) exCalls).map (fun m => m.flat.length) = .ok 0) ∧
    ((insertCalls (flatContents exSetting) (userMap 1 1 1 [(0, 0, 0)]) exCalls).map (fun m => m.flat.map (fun v => v.1.coord)) =
      .ok [(-1, 0, 0)]) := by
  constructor <;> decide +kernel

/-- C12 needs the no-wrap hypothesis: with `lru_horizon = SIZE_MAX` ("never delete") the sum `lru + lru_horizon` wraps
around and the voxel just used in the second call is deleted by that very call. -/
theorem C12_huge_horizon_deletes :
    (insertCalls (flatContents exSetting) (userMap 1 (2 ^ 64 - 1) 1 [(0, 0, 0)]) exCalls).map (fun m => m.flat.map (fun v => v.1.coord)) =
      .ok [(0, 0, 0)] ∧
    Spec.Touched (1 / (1 : ℚ)) exCalls (-1, 0, 0) 1 := by
  constructor
  · decide +kernel
  · refine ⟨([mkSrc (-(1/2)) 0 0], idMat), rfl, mkSrc (-(1/2)) 0 0, by simp, ?_⟩
    decide +kernel

/-- C16 is violated: on a map with a single stored point, `set_search_offsets(27)` and then `knn_search` with `k = 2`
returns that point twice. -/
theorem C16_duplicate_neighbors :
    ((runOps (flatContents exSetting) (VoxelMap.new 1) [.setOffsets 27, .insert [mkSrc (1/2) (1/2) (1/2)] idMat]).bind
      (fun m => Voxel.search (flatContents exSetting) 1000000 m (mkPt (1/2) (1/2) (1/4)) (-1) 2 [0, 0] [0, 0])).map
        (fun r => r.found) = .ok [(0, 1/16), (0, 1/16)] := by
  decide +kernel

/-- With 7 cells the same query returns it once (premises of C14/C16_partial are satisfiable). -/
example :
    ((runOps (flatContents exSetting) (VoxelMap.new 1) [.setOffsets 7, .insert [mkSrc (1/2) (1/2) (1/2), mkSrc (3/2) 0 0] idMat]).bind
      (fun m => Voxel.search (flatContents exSetting) 1000000 m (mkPt (1/2) (1/2) (1/4)) (-1) 5 [0, 0, 0, 0, 0] [0, 0, 0, 0, 0])).map
        (fun r => r.found) = .ok [(0, 1/16), (2 ^ 32, 21/16)] := by
  decide +kernel

/-- Premises of C15: query cell and its neighbours are defined, and a stored point is within one leaf; the nearest point
sits in a neighbouring cell. -/
example : Spec.CellDefined (1 / (1 : ℚ)) (mkPt (1/10) 0 0) ∧
    (∀ o, InPattern 27 o → Spec.CoordFits (Spec.shiftCell (Spec.cellOf (1 / (1 : ℚ)) (mkPt (1/10) 0 0)) o)) := by
  constructor
  · unfold Spec.CellDefined; decide +kernel
  · intro o ho
    have hc : Spec.cellOf (1 / (1 : ℚ)) (mkPt (1/10) 0 0) = (0, 0, 0) := by decide +kernel
    rw [hc]
    rcases ho with ⟨h, _⟩ | ⟨h, _⟩ | ⟨_, h1, h2, h3⟩
    · cases h
    · cases h
    · rw [abs_le] at h1 h2 h3
      simp only [Spec.CoordFits, Spec.shiftCell, INT_MIN, INT_MAX]
      omega

example :
    ((runOps (flatContents exSetting) (VoxelMap.new 1) [.setOffsets 27, .insert [mkSrc (9/10) 0 0, mkSrc (-(1/10)) 0 0] idMat]).bind
      (fun m => Voxel.search (flatContents exSetting) 1000000 m (mkPt (1/10) 0 0) 1 (-1) [0] [0])).map
        (fun r => r.found) = .ok [(2 ^ 32, 1/25)] := by
  decide +kernel

/-- Gaussian voxels (C18): two batches into the same cell give the mean of all three points. -/
example :
    ((insertCalls gaussianContents (userMap 1 100 10 [(0, 0, 0)])
      [([mkSrc 0 0 0, mkSrc (1/2) 0 0], idMat), ([mkSrc (1/4) (3/4) 0], idMat)]).map
        (fun m => m.flat.map (fun v => (v.2.numPoints, v.2.mean)))) = .ok [(3, mkPt (1/4) (1/4) 0)] := by
  decide +kernel

end Verif.Props
