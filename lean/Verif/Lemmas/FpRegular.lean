import Verif.Lemmas.FpWorld
import Verif.Lemmas.Combine
import Verif.Lemmas.ModulationGeom

/-!
# Regular inputs: static obstacles, planar velocity
-/

set_option linter.unusedSectionVars false
set_option linter.unusedSimpArgs false

namespace DOA
open Filter Topology Spec

namespace Modulation

theorem product_ne_zero {q : Quat ℝ} (hq : q.IsUnit) {b : M3 ℝ} (hb : b.det ≠ 0) {d v : V3 ℝ}
    (hd : 0 < d.x ∧ 0 < d.y ∧ 0 < d.z) (hv : v ≠ V3.zero) : (modulationProduct q b d).mulVec v ≠ V3.zero := by
  intro h
  apply hv
  rw [modulationProduct_mulVec hq] at h
  have hvw : v = q.rotate (q.conjugate.rotate v) := (Quat.rotate_rotate_conjugate hq v).symm
  generalize q.conjugate.rotate v = w at *
  have hz : q.rotate V3.zero = V3.zero := by
    have := Quat.rotate_smul q 0 V3.zero
    have e : V3.smul (0 : ℝ) V3.zero = V3.zero := by ext <;> simp [V3.smul, V3.zero]
    rw [e] at this
    rw [this]; ext <;> simp [V3.smul, V3.zero]
  have h1 := Quat.rotate_injective hq (h.trans hz.symm)
  suffices hw : w = V3.zero by rw [hvw, hw, hz]
  obtain ⟨c, rfl⟩ : ∃ c, b.mulVec c = w := ⟨_, M3.mulVec_inverse_mulVec hb w⟩
  rw [M3.inverse_mulVec_mulVec hb] at h1
  have h2 : b.inverse.mulVec (b.mulVec (M3.had d c)) = b.inverse.mulVec V3.zero := by rw [h1]
  rw [M3.inverse_mulVec_mulVec hb] at h2
  have h3 : b.inverse.mulVec V3.zero = V3.zero := by ext <;> simp [M3.mulVec, V3.zero]
  rw [h3] at h2
  have hx : d.x * c.x = 0 := congrArg V3.x h2
  have hy : d.y * c.y = 0 := congrArg V3.y h2
  have hz : d.z * c.z = 0 := congrArg V3.z h2
  have hc : c = V3.zero := by
    ext
    · exact (mul_eq_zero.mp hx).resolve_left hd.1.ne'
    · exact (mul_eq_zero.mp hy).resolve_left hd.2.1.ne'
    · exact (mul_eq_zero.mp hz).resolve_left hd.2.2.ne'
  rw [hc]; ext <;> simp [M3.mulVec, V3.zero]

theorem eigen_pos {d : ℝ} (hd : 1 < d) : 0 < (diagonalEigenvalues d 1).x ∧ 0 < (diagonalEigenvalues d 1).y ∧
    0 < (diagonalEigenvalues d 1).z := by
  have h2 : 1 / d < 1 := by rw [div_lt_one (by linarith)]; exact hd
  have h3 : 0 < 1 / d := by positivity
  simp only [diagonalEigenvalues, if_neg (_root_.not_le.mpr hd), pow_real, div_one, Real.rpow_one]
  exact ⟨by linarith, by linarith, by linarith⟩

/-- A planar velocity never loses its direction to a matrix that does not reverse it. -/
theorem definite_planar {rv : V3 ℝ} {M : M3 ℝ} (hz : rv.z = 0) (hrv : rv ≠ V3.zero) (hM : M.mulVec rv ≠ V3.zero)
    (hopp : ∀ c : ℝ, 0 < c → M.mulVec rv ≠ V3.smul (-c) rv) :
    Definite (dsFrame rv.normalized).transpose rv.normalized rv M := by
  refine ⟨hM, ?_⟩
  by_contra hcon
  push Not at hcon
  obtain ⟨hy, hz', hlt⟩ := hcon
  have hv1 : V3.norm rv.normalized = 1 := V3.norm_normalized hrv
  have hw1 : V3.norm (M.mulVec rv).normalized = 1 := V3.norm_normalized hM
  have hvz : rv.normalized.z = 0 := by rw [V3.normalized_of_ne hrv]; simp [V3.smul, hz]
  have hcomp := comp_sq hv1 hvz hw1
  rw [hy, hz'] at hcomp
  set c := V3.dot (M.mulVec rv).normalized rv.normalized with hc
  have hc1 : c = -1 := by
    have : (c - 1) * (c + 1) = 0 := by nlinarith
    rcases mul_eq_zero.mp this with h | h <;> linarith
  have hdec := frame_decomp (u := (M.mulVec rv).normalized) hv1 hvz
  rw [hy, hz', ← hc, hc1, mulVec_unit0] at hdec
  have hcol : (dsFrame rv.normalized).c0 = rv.normalized := by rw [dsFrame_planar hv1 hvz]
  rw [hcol] at hdec
  have hnM := V3.norm_pos hM
  have hnr := V3.norm_pos hrv
  apply hopp (V3.norm (M.mulVec rv) / V3.norm rv) (by positivity)
  conv_lhs => rw [← V3.norm_smul_normalized (M.mulVec rv), hdec, V3.normalized_of_ne hrv]
  ext <;> simp only [V3.smul] <;> field_simp

theorem off_of_long {l : V3 ℝ} (h : AllGt l (1 / 10000)) : OffThreshold l := ⟨h.1.ne', h.2.1.ne', h.2.2.ne'⟩

theorem Free.clear {er : Ellipsoid ℝ × V3 ℝ} {x : V3 ℝ} {m c : ℝ} (h : Free er x m c) : Clear er.1 er.2 x m := by
  obtain ⟨k, -, sm⟩ := h.smooth
  obtain ⟨y, w, co⟩ := coord sm h.star
  have hnr := co.nr
  refine ⟨?_, off_of_long sm.long, ?_, h.tangent, ?_, coord_det sm co⟩
  · have := (Quat.isUnit_iff_norm _).mpr sm.unit
    show 0 < er.1.base.orientation.sqNorm
    rw [show er.1.base.orientation.sqNorm = 1 from this]; exact one_pos
  · intro h0; rw [h0] at hnr; simp [V3.dot, V3.zero] at hnr
  · intro h0; rw [h0] at hnr; simp [V3.dot, V3.zero] at hnr

theorem relative_static {x v : V3 ℝ} {its : List (Item ℝ)}
    (hst : ∀ i ∈ its, i.base.state.linearVelocity = V3.zero ∧ i.base.state.angularVelocity = V3.zero) (ws : List ℝ) :
    (relativeVelocities x v its ws).1 = v := by
  have key : ∀ (l : List (Item ℝ × ℝ)) (acc : V3 ℝ), (∀ y ∈ l, y.1 ∈ its) →
      l.foldl (fun acc y => acc + obstacleVelocity x y.1.base y.1.dist y.2 y.1.basis) acc = acc := by
    intro l
    induction l with
    | nil => intro acc _; rfl
    | cons y l ih =>
      intro acc hl
      rw [List.foldl_cons, ih _ fun z hz => hl z (by simp [hz])]
      obtain ⟨h1, h2⟩ := hst _ (hl y (by simp))
      have : obstacleVelocity x y.1.base y.1.dist y.2 y.1.basis = V3.zero := by
        unfold obstacleVelocity
        rw [h1, h2]
        ext <;> simp [V3.cross, V3.zero, V3.smul, M3.mulVec, M3.transpose]
      rw [this]; ext <;> simp [V3.zero]
  show v - _ = v
  rw [key _ _ fun y hy => (List.of_mem_zip hy).1]
  ext <;> simp [V3.zero]

theorem regular_of_free {es : List (Ellipsoid ℝ × V3 ℝ)} {x v : V3 ℝ} {m c p : ℝ} (rep : Bool)
    (h : ∀ er ∈ es, Free er x m c) (hz : v.z = 0) (hv : v ≠ V3.zero) (ha : (turn es x v m c p).norm ≠ 1 / 10000)
    (hr : rep = true → (∀ er ∈ es, gdist er.1 m x ≠ 11 / 10) ∧
      ((es.map fun er => ellRep er.1 er.2 x m).foldl (· + ·) V3.zero).norm ≠ 1 / 10000) :
    Regular es x v m rep c p := by
  have hrel : ∀ ws, (relativeVelocities x v (es.map fun er => ellItem er.1 er.2 x m) ws).1 = v := by
    refine fun ws => relative_static ?_ ws
    intro i hi
    obtain ⟨er, he, rfl⟩ := List.mem_map.mp hi
    exact ⟨(h er he).lin, (h er he).ang⟩
  refine ⟨fun er he => (h er he).clear, ⟨?_, ?_, ?_, ?_⟩, ?_, fun hh => (hr hh).2⟩
  · intro i hi
    obtain ⟨er, he, rfl⟩ := List.mem_map.mp hi
    exact (h er he).critical
  · rw [hrel]; exact hv
  · intro i hi
    obtain ⟨er, he, rfl⟩ := List.mem_map.mp hi
    simp only [hrel]
    have hf := h er he
    obtain ⟨k, -, sm⟩ := hf.smooth
    have hq := (Quat.isUnit_iff_norm _).mpr sm.unit
    have hev := eigen_pos hf.outside
    exact definite_planar hz hv (product_ne_zero hq hf.clear.regular hev hv)
      (fun c hc => not_opposite hq _ ⟨hev.1.le, hev.2.1.le, hev.2.2.le⟩ hc hv)
  · simp only [hrel]; exact ha
  · intro hh er he
    obtain ⟨k, -, sm⟩ := (h er he).smooth
    refine ⟨off_of_long sm.long, (hr hh).1 er he, ?_⟩
    have := (h er he).outside
    show gdist er.1 m x ≠ 0
    linarith

end Modulation
end DOA
