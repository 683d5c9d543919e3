import Mathlib.Analysis.Calculus.MeanValue
import Mathlib.Analysis.Calculus.Deriv.MeanValue
import Mathlib.Analysis.SpecialFunctions.ExpDeriv
import Mathlib.Topology.Order.IntermediateValue
import Mathlib.Topology.Order.Compact
import Mathlib.Tactic.Linarith
import Mathlib.Tactic.Positivity

/-! A barrier argument: if `Γ' = (1 - 1/Γ) g` wherever `Γ > 1`, with `g` continuous, then `Γ` stays
above 1. -/

namespace DOA

open Set

theorem barrier {Γ g : ℝ → ℝ} (hc : ContinuousOn Γ (Ici 0)) (hg : ContinuousOn g (Ici 0))
    (hd : ∀ t, 0 < t → 1 < Γ t → HasDerivAt Γ ((1 - 1 / Γ t) * g t) t) (h0 : 1 < Γ 0) :
    ∀ t, 0 ≤ t → 1 < Γ t := by
  intro t1 ht1
  by_contra hcon
  rw [not_lt] at hcon
  -- first time at which `Γ ≤ 1`
  set S := Icc 0 t1 ∩ {t | Γ t ≤ 1} with hS
  have hclosed : IsClosed S := by
    have hci : ContinuousOn Γ (Icc 0 t1) := hc.mono Icc_subset_Ici_self
    exact hci.preimage_isClosed_of_isClosed isClosed_Icc isClosed_Iic
  have hne : S.Nonempty := ⟨t1, ⟨ht1, le_refl _⟩, hcon⟩
  have hbdd : BddBelow S := ⟨0, fun t ht => ht.1.1⟩
  have ht0 : sInf S ∈ S := hclosed.csInf_mem hne hbdd
  set t0 := sInf S with ht0def
  have hbefore : ∀ t, 0 ≤ t → t < t0 → 1 < Γ t := by
    intro t h1 h2
    by_contra h3
    have : t ∈ S := ⟨⟨h1, le_trans h2.le ht0.1.2⟩, not_lt.mp h3⟩
    exact absurd (csInf_le hbdd this) (not_le.mpr h2)
  have ht0pos : 0 < t0 := by
    rcases lt_or_eq_of_le ht0.1.1 with h | h
    · exact h
    · exfalso
      have h2 : Γ t0 ≤ 1 := ht0.2
      rw [← h] at h2
      exact absurd h0 (not_lt.mpr h2)
  -- a bound for `g`
  obtain ⟨C, hC⟩ : ∃ C : ℝ, ∀ t ∈ Icc 0 t0, |g t| ≤ C := by
    have hgi : ContinuousOn (fun t => |g t|) (Icc 0 t0) := (hg.mono Icc_subset_Ici_self).abs
    obtain ⟨x, hx, hm⟩ := isCompact_Icc.exists_isMaxOn ⟨0, left_mem_Icc.mpr ht0pos.le⟩ hgi
    exact ⟨|g x|, fun t ht => hm ht⟩
  -- `(Γ - 1) e^{Ct}` does not decrease
  set F : ℝ → ℝ := fun t => (Γ t - 1) * Real.exp (C * t) with hF
  have hFd : ∀ t ∈ Ioo 0 t0, HasDerivAt F
      ((1 - 1 / Γ t) * g t * Real.exp (C * t) + (Γ t - 1) * (Real.exp (C * t) * C)) t := by
    intro t ht
    have h1 := hd t ht.1 (hbefore t ht.1.le ht.2)
    have h2 : HasDerivAt (fun t : ℝ => Real.exp (C * t)) (Real.exp (C * t) * C) t := by
      have := ((hasDerivAt_id t).const_mul C).exp
      simpa using this
    exact (h1.sub_const 1).mul h2
  have hmono : MonotoneOn F (Icc 0 t0) := by
    apply monotoneOn_of_deriv_nonneg (convex_Icc 0 t0)
    · apply ContinuousOn.mul
      · exact (hc.mono Icc_subset_Ici_self).sub continuousOn_const
      · exact (Real.continuous_exp.comp (continuous_const.mul continuous_id)).continuousOn
    · rw [interior_Icc]
      intro t ht
      exact (hFd t ht).differentiableAt.differentiableWithinAt
    · rw [interior_Icc]
      intro t ht
      rw [(hFd t ht).deriv]
      have hG := hbefore t ht.1.le ht.2
      have hb := hC t ⟨ht.1.le, ht.2.le⟩
      have hgl : -C ≤ g t := (abs_le.mp hb).1
      have hC0 : 0 ≤ C := le_trans (abs_nonneg _) hb
      have he := Real.exp_pos (C * t)
      have h1 : 1 / Γ t ≤ 1 := by rw [div_le_one (by linarith)]; exact hG.le
      have h2 : 1 - 1 / Γ t ≤ Γ t - 1 := by
        rw [sub_le_sub_iff]
        have : 0 < Γ t := by linarith
        rw [← sub_nonneg]
        have e1 : Γ t + 1 / Γ t - (1 + 1) = (Γ t - 1) ^ 2 / Γ t := by field_simp; ring
        rw [e1]; positivity
      have h3 : -(C * (Γ t - 1)) ≤ (1 - 1 / Γ t) * g t := by
        have h4 : (1 - 1 / Γ t) * (-C) ≤ (1 - 1 / Γ t) * g t :=
          mul_le_mul_of_nonneg_left hgl (by linarith)
        nlinarith
      nlinarith
  have hfin := hmono (left_mem_Icc.mpr ht0pos.le) (right_mem_Icc.mpr ht0pos.le) ht0pos.le
  simp only [hF, mul_zero, Real.exp_zero, mul_one] at hfin
  have h2 : Γ t0 ≤ 1 := ht0.2
  have he := Real.exp_pos (C * t0)
  nlinarith

end DOA
