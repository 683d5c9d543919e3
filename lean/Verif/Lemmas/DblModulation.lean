import Verif.Lemmas.Dbl
import Verif.Lemmas.Order

/-!
# Transfer between ideal doubles and reals: modulation
-/

set_option linter.unusedSectionVars false
set_option linter.unusedSimpArgs false

namespace DOA.Modulation
open DOA Dbl

theorem toD_sum (l : List ℝ) : Modulation.sum (l.map fin) = fin (Modulation.sum l) := by
  unfold Modulation.sum
  have : ∀ (l : List ℝ) (a : ℝ), (l.map fin).foldl (· + ·) (fin a) = fin (l.foldl (· + ·) a) := by
    intro l
    induction l with
    | nil => intro a; rfl
    | cons b l ih => intro a; simp only [List.map_cons, List.foldl_cons, fin_add, ih]
  exact this l 0

@[simp] theorem toD_maxS (a b : ℝ) : maxS (fin a) (fin b) = fin (maxS a b) := by
  unfold maxS
  by_cases h : a < b
  · rw [if_pos (show fin a < fin b from h), if_pos h]
  · rw [if_neg (show ¬ fin a < fin b from h), if_neg h]

@[simp] theorem toD_absS (a : ℝ) : absS (fin a) = fin (absS a) := by
  unfold absS
  by_cases h : a < 0
  · rw [if_pos (show fin a < 0 from h), if_pos h]; rfl
  · rw [if_neg (show ¬ fin a < 0 from h), if_neg h]

theorem toD_weights (ds : List ℝ) (c p : ℝ) :
    weightObstacles (ds.map fin) (fin c) (fin p) = (weightObstacles ds c p).map fin := by
  have hcrit : (ds.map fin).map (fun d => if d ≤ fin c then (1 : Int) else 0)
      = ds.map (fun d => if d ≤ c then (1 : Int) else 0) := by
    rw [List.map_map]; rfl
  unfold weightObstacles
  simp only [hcrit]
  generalize hs : (ds.map (fun d => if d ≤ c then (1 : Int) else 0)).foldl (· + ·) 0 = s
  by_cases h0 : 0 < s
  · rw [if_pos h0, if_pos h0]
    generalize ds.map (fun d => if d ≤ c then (1 : Int) else 0) = cl
    rw [List.map_map]
    apply List.map_congr_left
    intro i _
    show (lit i 1 : Dbl) / lit s 1 = fin ((lit i 1 : ℝ) / lit s 1)
    have hne : ((s : ℝ) / ((1 : Nat) : ℝ)) ≠ 0 := by
      have : (s : ℝ) ≠ 0 := by exact_mod_cast h0.ne'
      simpa using this
    rw [lit_def, lit_def, fin_div hne]; rfl
  · rw [if_neg h0, if_neg h0]
    have hpos : ∀ d ∈ ds, c < d := by
      intro d hd
      by_contra hcd
      apply h0
      have key : ∀ (l : List ℝ) (a : Int), a ≤ (l.map (fun d => if d ≤ c then (1 : Int) else 0)).foldl (· + ·) a := by
        intro l
        induction l with
        | nil => intro a; exact le_refl _
        | cons b l ih =>
          intro a
          simp only [List.map_cons, List.foldl_cons]
          refine le_trans ?_ (ih _)
          split <;> omega
      obtain ⟨l1, l2, rfl⟩ := List.append_of_mem hd
      rw [← hs, List.map_append, List.foldl_append, List.map_cons, List.foldl_cons, if_pos (not_lt.mp hcd)]
      have h1 := key l1 0
      have h2 := key l2 ((l1.map (fun d => if d ≤ c then (1 : Int) else 0)).foldl (· + ·) 0 + 1)
      omega
    have hw : (ds.map fin).map (fun d => CMath.pow (d - fin c) (-fin p))
        = (ds.map (fun d => CMath.pow (d - c) (-p))).map fin := by
      rw [List.map_map, List.map_map]
      apply List.map_congr_left
      intro d hd
      simp only [Function.comp_apply, fin_sub, fin_neg, pow_real]
      exact fin_pow_pos (sub_pos.mpr (hpos d hd)) _
    have hp : ∀ w ∈ ds.map (fun d => CMath.pow (d - c) (-p)), (0 : ℝ) < w := by
      intro w hw
      obtain ⟨d, hd, rfl⟩ := List.mem_map.mp hw
      exact Real.rpow_pos_of_pos (sub_pos.mpr (hpos d hd)) _
    rw [hw]
    generalize ds.map (fun d => CMath.pow (d - c) (-p)) = l at hp
    rw [List.map_map, List.map_map]
    apply List.map_congr_left
    intro x hx
    have hsum : 0 < Modulation.sum l := by
      have hfold : ∀ (l : List ℝ) (a : ℝ), l.foldl (· + ·) a = a + l.sum := by
        intro l
        induction l with
        | nil => intro a; simp
        | cons b l ih => intro a; rw [List.foldl_cons, ih, List.sum_cons]; ring
      unfold Modulation.sum
      rw [hfold, zero_add]
      apply List.sum_pos
      · exact hp
      · rintro rfl; exact absurd hx (by simp)
    simp only [Function.comp_apply]
    rw [toD_sum, fin_div hsum.ne']

theorem toD_eigenvalues (d : ℝ) : diagonalEigenvalues (fin d) (1 : Dbl) = (diagonalEigenvalues d 1).toD := by
  unfold diagonalEigenvalues
  by_cases h : d ≤ 1
  · rw [if_pos (show fin d ≤ (1 : Dbl) from h), if_pos h]
    ext <;> simp
  · rw [if_neg (show ¬ fin d ≤ (1 : Dbl) from h), if_neg h]
    have hd : 0 < d := by linarith [not_le.mp h]
    have h1 : (1 : Dbl) / CMath.pow (fin d) (1 / 1) = fin (1 / CMath.pow d (1 / 1)) := by
      rw [one_def, fin_div one_ne_zero, fin_pow_pos hd, fin_div (Real.rpow_pos_of_pos hd _).ne']
      rfl
    simp only [h1]
    ext <;> simp

@[simp] theorem toD_tangent (n : V3 ℝ) : tangentVector n.toD = (tangentVector n).toD := by
  unfold tangentVector
  simp only [V3.toD_unitZ, V3.toD_unitY, V3.toD_cross, V3.toD_norm]
  by_cases h : (V3.cross n V3.unitZ).norm < lit 1 10000
  · rw [if_pos (show fin _ < (lit 1 10000 : Dbl) from h), if_pos h]
  · rw [if_neg (show ¬ fin _ < (lit 1 10000 : Dbl) from h), if_neg h]

@[simp] theorem toD_orthogonalBasis (n : V3 ℝ) : orthogonalBasis n.toD = (orthogonalBasis n).toD := by
  simp [orthogonalBasis, M3.toD]

@[simp] theorem toD_referenceBasis (n r : V3 ℝ) : referenceBasis n.toD r.toD = (referenceBasis n r).toD := by
  simp [referenceBasis, M3.toD]

@[simp] theorem toD_referenceDirection (p : Pose ℝ) (x r : V3 ℝ) :
    referenceDirection p.toD x.toD r.toD = (referenceDirection p x r).toD := by
  simp [referenceDirection]

theorem toD_product (q : Quat ℝ) {b : M3 ℝ} (hb : b.det ≠ 0) (d : V3 ℝ) :
    modulationProduct q.toD b.toD d.toD = (modulationProduct q b d).toD := by
  simp only [modulationProduct, Quat.toD_toM3, M3.toD_mul, M3.toD_mulDiag, M3.toD_inverse _ hb, Quat.toD_inverse]

theorem toD_obstacleVelocity (x : V3 ℝ) (o : Base ℝ) (d w : ℝ) (b : M3 ℝ) :
    obstacleVelocity x.toD o.toD (fin d) (fin w) b.toD = (obstacleVelocity x o d w b).toD := by
  simp only [obstacleVelocity, one_def, toD_maxS, fin_sub, fin_neg, fin_exp, Base.toD_position, V3.toD_sub, V3.toD_cross,
    Base.toD, State.toD_lin, State.toD_ang, V3.toD_add, V3.toD_smul, M3.toD_transpose, M3.toD_mulVec,
    V3.toD_x, V3.toD_y, V3.toD_z, fin_mul]
  show V3.mk _ _ _ = V3.toD _
  ext <;> simp <;> rfl

@[simp] theorem toD_dsFrame (v : V3 ℝ) : dsFrame v.toD = (dsFrame v).toD := by
  unfold dsFrame
  simp only [ite_self]
  simp [M3.toD]

@[simp] theorem toD_safeAcos (x : ℝ) : safeAcos (fin x) = fin (safeAcos x) := by
  unfold safeAcos
  by_cases h1 : x < -1
  · rw [if_pos (show fin x < (-1 : Dbl) from h1), if_pos h1]
    exact fin_acos (by norm_num) (by norm_num)
  · rw [if_neg (show ¬ fin x < (-1 : Dbl) from h1), if_neg h1]
    by_cases h2 : 1 < x
    · rw [if_pos (show (1 : Dbl) < fin x from h2), if_pos h2]
      exact fin_acos (by norm_num) (by norm_num)
    · rw [if_neg (show ¬ (1 : Dbl) < fin x from h2), if_neg h2]
      exact fin_acos (not_lt.mp h1) (not_lt.mp h2)

theorem toD_angleTerm (f : M3 ℝ) (nrv rv : V3 ℝ) (m : M3 ℝ) (w : ℝ) :
    angleTerm f.toD nrv.toD rv.toD m.toD (fin w)
      = (fin (angleTerm f nrv rv m w).1, (angleTerm f nrv rv m w).2.toD) := by
  unfold angleTerm
  simp only [M3.toD_mulVec, V3.toD_norm, fin_mul, V3.toD_normalized, V3.toD_y, V3.toD_z, V3.toD_dot, toD_safeAcos]
  rw [show (⟨fin (f.mulVec (m.mulVec rv).normalized).y, fin (f.mulVec (m.mulVec rv).normalized).z⟩ : V2 Dbl)
    = V2.toD ⟨(f.mulVec (m.mulVec rv).normalized).y, (f.mulVec (m.mulVec rv).normalized).z⟩ from rfl]
  simp only [V2.toD_normalized, V2.toD_scale]

theorem toD_reconstruct (s : V2 ℝ) : reconstruct s.toD = (reconstruct s).toD := by
  unfold reconstruct
  simp only [V2.toD_norm]
  by_cases h : s.norm < lit 1 10000
  · rw [if_pos (show fin s.norm < (lit 1 10000 : Dbl) from h), if_pos h]; rfl
  · rw [if_neg (show ¬ fin s.norm < (lit 1 10000 : Dbl) from h), if_neg h]
    have hn : s.norm ≠ 0 := by
      intro h0; apply h; rw [h0]; simp only [lit_real]; norm_num
    ext <;> simp [fin_div hn]

theorem toD_relative (x v : V3 ℝ) (its : List (Item ℝ)) (ws : List ℝ) :
    relativeVelocities x.toD v.toD (its.map Item.toD) (ws.map fin)
      = ((relativeVelocities x v its ws).1.toD, (relativeVelocities x v its ws).2.toD) := by
  have key : ∀ (l : List (Item ℝ × ℝ)) (acc : V3 ℝ),
      (l.map (Prod.map Item.toD fin)).foldl
        (fun acc y => acc + obstacleVelocity x.toD y.1.base y.1.dist y.2 y.1.basis) acc.toD
      = (l.foldl (fun acc y => acc + obstacleVelocity x y.1.base y.1.dist y.2 y.1.basis) acc).toD := by
    intro l
    induction l with
    | nil => intro acc; rfl
    | cons b l ih =>
      intro acc
      simp only [List.map_cons, List.foldl_cons, Prod.map, Item.toD, toD_obstacleVelocity, V3.toD_add]
      exact ih _
  unfold relativeVelocities
  simp only [List.zip_map, V3.toD_zero, key, V3.toD_sub]

theorem toD_combine (x v : V3 ℝ) (its : List (Item ℝ)) (c p : ℝ) :
    combine x.toD v.toD (its.map Item.toD) (fin c) (fin p) = (combine x v its c p).toD := by
  have hd : (its.map Item.toD).map (·.dist) = (its.map (·.dist)).map fin := by
    rw [List.map_map, List.map_map]; rfl
  have key : ∀ (f : M3 ℝ) (nrv rv : V3 ℝ) (l : List (Item ℝ × ℝ)) (acc : ℝ × V2 ℝ),
      (l.map (Prod.map Item.toD fin)).foldl (fun (acc : Dbl × V2 Dbl) y =>
        (acc.1 + (angleTerm f.toD nrv.toD rv.toD y.1.matrix y.2).1,
          acc.2.add (angleTerm f.toD nrv.toD rv.toD y.1.matrix y.2).2)) (fin acc.1, acc.2.toD)
      = (fin (l.foldl (fun (acc : ℝ × V2 ℝ) y =>
          (acc.1 + (angleTerm f nrv rv y.1.matrix y.2).1, acc.2.add (angleTerm f nrv rv y.1.matrix y.2).2)) acc).1,
        (l.foldl (fun (acc : ℝ × V2 ℝ) y =>
          (acc.1 + (angleTerm f nrv rv y.1.matrix y.2).1, acc.2.add (angleTerm f nrv rv y.1.matrix y.2).2)) acc).2.toD) := by
    intro f nrv rv l
    induction l with
    | nil => intro acc; rfl
    | cons b l ih =>
      intro acc
      simp only [List.map_cons, List.foldl_cons, Prod.map, Item.toD, toD_angleTerm, fin_add, V2.toD_add]
      exact ih (acc.1 + (angleTerm f nrv rv b.1.matrix b.2).1, acc.2.add (angleTerm f nrv rv b.1.matrix b.2).2)
  unfold combine
  simp only [hd, toD_weights, toD_relative, V3.toD_normalized, toD_dsFrame, M3.toD_transpose, List.zip_map]
  have key' := fun f nrv rv l => key f nrv rv l (0, V2.zero)
  rw [show ((0 : Dbl), (V2.zero : V2 Dbl)) = (fin 0, V2.toD V2.zero) from rfl, key']
  simp only [toD_reconstruct, M3.toD_mulVec]
  rw [← V3.toD_add]
  rfl

end DOA.Modulation
