import Verif.Spec.Pipeline
import Verif.Props.Features
import Verif.Props.RegistrationSelf
import Mathlib.Analysis.Matrix.Spectrum
import Mathlib.Data.Fin.Tuple.Sort

/-! Lemmas for the preprocessing pipeline. -/

set_option linter.unusedSectionVars false
set_option linter.unusedSimpArgs false

namespace Verif.Proofs

open Matrix Verif Verif.KdTree Verif.PointCloud Verif.Features Verif.RegMem Verif.Pipeline Verif.Spec Verif.Factors Verif.Props

/-- A real symmetric matrix has an eigenbasis in increasing order of the eigenvalues. -/
theorem exists_eigenBasis (A : M3) (h : Aᵀ = A) : ∃ V, EigenBasis A V := by
  have hA : A.IsHermitian := by
    unfold Matrix.IsHermitian
    rw [conjTranspose_eq_transpose_of_trivial]
    exact h
  let U : M3 := (hA.eigenvectorUnitary : M3)
  have hU : Uᵀ * U = 1 := by
    have := Unitary.coe_star_mul_self hA.eigenvectorUnitary
    rw [star_eq_conjTranspose, conjTranspose_eq_transpose_of_trivial] at this
    exact this
  have hev : A * U = U * diagonal hA.eigenvalues := by
    ext a b
    have := congrFun (hA.mulVec_eigenvectorBasis b) a
    rw [mul_diagonal]
    simp only [Pi.smul_apply, smul_eq_mul] at this
    rw [mul_comm]
    exact this
  let σ := Tuple.sort hA.eigenvalues
  have hmono := Tuple.monotone_sort hA.eigenvalues
  refine ⟨U.submatrix id σ, ?_, hA.eigenvalues ∘ σ, ?_, hmono (by decide), hmono (by decide)⟩
  · ext a b
    have := congrFun (congrFun hU (σ a)) (σ b)
    simp only [Matrix.mul_apply, transpose_apply, submatrix_apply, id_eq, Matrix.one_apply, EmbeddingLike.apply_eq_iff_eq] at this ⊢
    exact this
  · ext a b
    have := congrFun (congrFun hev a) (σ b)
    rw [mul_diagonal] at this ⊢
    simp only [Matrix.mul_apply, submatrix_apply, id_eq, Function.comp] at this ⊢
    exact this

theorem toPt_ofPt (p : Pt ℝ) : toPt (ofPt p) = p := rfl

theorem ofPt_toPt (v : Fin 4 → ℝ) : ofPt (toPt v) = v := by
  funext i
  fin_cases i <;> rfl

theorem sampled_get (out : List (Pt ℝ)) (i : Nat) : (sampledCloud out).points[i]? = out[i]?.map (fun p => some (ofPt p)) := by
  simp [sampledCloud]

theorem sampled_size (out : List (Pt ℝ)) : (sampledCloud out).size = out.length := by simp [sampledCloud, Cloud.size]

/-- Reading back the points of a cloud that holds exactly `out`. -/
theorem cloudPoints_of (c : RCloud) (out : List (Pt ℝ)) (h : c.points = out.map (fun p => some (ofPt p))) : cloudPoints c = .ok out := by
  have hset : PointsSet c := by
    intro i hi
    rw [h, List.length_map] at hi
    exact ⟨ofPt out[i], by rw [h, List.getElem?_map, List.getElem?_eq_getElem hi]; rfl⟩
  obtain ⟨pts, h1, h2, h3⟩ := cloudPoints_ok c hset
  rw [h1]
  congr 1
  apply List.ext_getElem?
  intro i
  rcases ho : out[i]? with _ | p
  · rw [List.getElem?_eq_none_iff] at ho ⊢
    rw [h2]
    show c.points.length ≤ i
    rw [h, List.length_map]
    exact ho
  · rw [h3]
    exact ⟨ofPt p, by rw [h, List.getElem?_map, ho]; rfl, rfl⟩

section Knn

variable {e : Env} (he : EnvMeets e)

include he in
theorem builder_find : FindAxisSpec KdTree.Proj.UnitBounded e.builder.findAxis := by
  intro points range hne hv
  obtain ⟨p, h1, a, h2⟩ := findAxis_spec (exactOps ℝ) 128 (by unfold toU64; decide) points range hne hv
  refine ⟨p, h1, ?_⟩
  subst h2
  exact trivial

theorem builder_leaf : SafeLeafSize e.builder.maxLeafSize := by
  show 3 ≤ toU64 20
  unfold toU64
  decide

include he in
/-- The search made by the feature estimation, on the tree of the cloud. -/
theorem kdKnn_ok {out : List (Pt ℝ)} (hne : out ≠ []) (hN : out.length < 2 ^ 32) {t : KdTree.Tree ℝ} (ht : TreeOf e.builder out t) {k : Nat} (hk : 0 < k) (q : V4) :
    ∃ nb, kdKnn e t (sampledCloud out).points q k = .ok (nb.map Prod.fst) ∧ Neighbours out e.maxD k (toPt q) nb := by
  obtain ⟨r, h1, h2, h3⟩ := knn_any e.builder he.nth (builder_find he) builder_leaf out hne hN t ht e.maxD he.maxD (toPt q) (-1) k k (by simp) hk (by omega)
    (List.replicate k 0) (List.replicate k 0) (by simp) (by simp) (out.length + 1) (by omega)
  refine ⟨r.found, ?_, h2, h3⟩
  unfold kdKnn
  rw [cloudPoints_of ⟨(sampledCloud out).points, [], []⟩ out rfl, ok_bind, h1]
  rfl

end Knn

/-- The estimation is defined if the frame of every point is. -/
theorem estimate_defined {S : Setter} {eig : M3 → M3} {mkTree : RCloud → Res Search} {knn : Search} {k : Int} {cloud : RCloud}
    (ht : mkTree (cloud.resize cloud.size) = .ok knn) (hf : ∀ i < cloud.size, ∃ f, localFrame eig knn k (cloud.resize cloud.size) i = .ok f) :
    ∃ c', estimate S eig mkTree k cloud = .ok c' := by
  obtain ⟨hp, hn, hc, hsz⟩ := resize_self cloud
  classical
  have hall : ∀ i, ∃ fp : Option M3 × V4, i < cloud.size → localFrame eig knn k (cloud.resize cloud.size) i = .ok fp.1 ∧ (cloud.resize cloud.size).points[i]? = some (some fp.2) := by
    intro i
    by_cases hi : i < cloud.size
    · obtain ⟨f, hf⟩ := hf i hi
      obtain ⟨p, _, hp'⟩ := localFrame_point hf
      exact ⟨(f, p), fun _ => ⟨hf, hp'⟩⟩
    · exact ⟨(none, 0), fun hi' => absurd hi' hi⟩
  choose fp hfp using hall
  obtain ⟨c2, l2, e2, _⟩ := run_values (base := cloud.resize cloud.size) (f := fun i => (fp i).1) (p := fun i => (fp i).2) hn hc
    (fun i hi => (hfp i hi).2) (fun i hi => (hfp i hi).1) ((List.range cloud.size).flatMap S.acts)
    (fun done a rest h => acts_before S _ done a rest h) (by
      intro i hi
      simp only [List.mem_flatMap, List.mem_range, Setter.acts] at hi
      rcases hi with ⟨j, hj, hm⟩ | ⟨j, hj, hm⟩ | ⟨j, hj, hm⟩ <;> cases hS1 : S.normals <;> cases hS2 : S.covs <;> simp [hS1, hS2] at hm <;> omega) (fun _ => none)
  obtain ⟨loc', hser⟩ := estimate_acts (S := S) (eig := eig) (knn := knn) (k := k) (List.range cloud.size) (cloud.resize cloud.size) (fun _ => none)
  rw [e2] at hser
  unfold estimate
  dsimp only
  rw [ht, ok_bind, hsz]
  cases hr : (List.range cloud.size).foldlM (estimateOne S eig knn k) (cloud.resize cloud.size) with
  | error e => rw [hr, err_bind] at hser; cases hser
  | ok c => exact ⟨c, rfl⟩

/-- A frame is defined if the search finds indices of set points. -/
theorem localFrame_defined {eig : M3 → M3} {knn : Search} {k : Int} (hk : 0 ≤ k) {c : RCloud} {i : Nat} {p : V4} (hp : c.points[i]? = some (some p)) {idx : List Nat}
    (hknn : knn c.points p k.toNat = .ok idx) (hidx : ∀ j ∈ idx, ∃ q, c.points[j]? = some (some q)) : ∃ f, localFrame eig knn k c i = .ok f := by
  have hpt : ∀ {j : Nat} {q : V4}, c.points[j]? = some (some q) → c.point j = .ok q := by
    intro j q h
    unfold Cloud.point getSlot
    rw [rd_of_getElem? h, ok_bind]
    rfl
  have hfold : ∀ (l : List Nat) (acc : V4 × M4), (∀ j ∈ l, ∃ q, c.points[j]? = some (some q)) →
      ∃ r, l.foldlM (fun (acc : V4 × M4) j => (do
        let pt ← c.point j
        .ok (acc.1 + pt, acc.2 + vecMulVec pt pt) : Res (V4 × M4))) acc = .ok r := by
    intro l
    induction l with
    | nil => intro acc _; exact ⟨acc, rfl⟩
    | cons j l ih =>
      intro acc h
      obtain ⟨q, hq⟩ := h j (by simp)
      obtain ⟨r, hr⟩ := ih (acc.1 + q, acc.2 + vecMulVec q q) (fun j hj => h j (by simp [hj]))
      exact ⟨r, by rw [List.foldlM_cons, hpt hq, ok_bind, ok_bind]; exact hr⟩
  unfold localFrame
  rw [if_neg (by omega), hpt hp, ok_bind, hknn, ok_bind]
  split
  · exact ⟨_, rfl⟩
  · obtain ⟨r, hr⟩ := hfold idx (0, 0) hidx
    rw [hr, ok_bind]
    exact ⟨_, rfl⟩

end Verif.Proofs
