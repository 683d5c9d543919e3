import Verif.Lemmas.Orbit

/-!
# Sequences of points around an ellipse, without a push outwards

`d`: the distance from the ellipse. The point is drawn to the target more slowly the closer it is to the surface.
-/

namespace DOA.Orbit

open Filter Topology

/-- What the steps of the loop around an ellipse give without repulsion. -/
structure Free (l T c C B ν0 Rb : ℝ) (p q d : ℕ → ℝ) : Prop extends Turning l T ν0 Rb p q where
  c_pos : 0 < c
  C_pos : 0 < C
  B_pos : 0 < B
  outside : ∀ n, 1 < d n
  pull : ∀ n, ∃ lam e, c * (1 - 1 / d n) ≤ lam ∧ lam ≤ 1 ∧ |e| ≤ C * |q n| ∧ p (n + 1) = p n + lam * (T - p n) + e
  grow : ∀ n, 0 < p n → p n ≤ T - B * |q n| → d n ≤ d (n + 1)
  near : ∃ g η, 0 < g ∧ 0 < η ∧ ∀ n, T - g ≤ p n → |q n| ≤ g → 1 + η ≤ d n

variable {l T c C B ν0 Rb : ℝ} {p q d : ℕ → ℝ}

/-- a sequence above a bound from some index on is above a bound altogether -/
theorem uniform {f : ℕ → ℝ} {N : ℕ} {b : ℝ} (hb : 0 < b) (h0 : ∀ n, 0 < f n) (h : ∀ n, N ≤ n → b ≤ f n) :
    ∃ η, 0 < η ∧ ∀ n, η ≤ f n := by
  induction N generalizing b with
  | zero => exact ⟨b, hb, fun n => h n (Nat.zero_le n)⟩
  | succ N ih =>
    refine ih (lt_min hb (h0 N)) fun n hn => ?_
    rcases Nat.eq_or_lt_of_le hn with rfl | hn
    · exact min_le_right _ _
    · exact (min_le_left _ _).trans (h n hn)

/-- the point keeps a distance from the surface -/
theorem Free.gap (h : Free l T c C B ν0 Rb p q d) (h0 : ¬(q 0 = 0 ∧ p 0 < 0)) : ∃ η, 0 < η ∧ ∀ n, 1 + η ≤ d n := by
  obtain ⟨g, η, hg, hη, hn⟩ := h.near
  have hB := h.B_pos
  have hC := h.C_pos
  set ε := g / 2 / (1 + B + C) with hε
  have hs : 0 < 1 + B + C := by linarith
  have hε0 : 0 < ε := by positivity
  have hsum : ε * (1 + B + C) = g / 2 := by rw [hε]; field_simp
  have hεB : B * ε ≤ g / 2 := by nlinarith [mul_pos hC hε0]
  have hεC : C * ε ≤ g / 2 := by nlinarith [mul_pos hB hε0]
  have hε1 : ε ≤ g := by nlinarith [mul_pos hB hε0, mul_pos hC hε0]
  obtain ⟨N1, h1⟩ := h.q_zero h0 (show 0 < ε ^ 2 by positivity)
  obtain ⟨N2, h2⟩ := h.cone h0 1 one_pos
  have hq : ∀ n, N1 ≤ n → |q n| ≤ ε := fun n hn => (abs_lt_of_sq_lt_sq (h1 n hn) hε0.le).le
  set N := max N1 N2 with hN
  have key : ∀ n, N ≤ n → min (d N) (1 + η) ≤ d n := by
    intro n hn'
    induction n, hn' using Nat.le_induction with
    | base => exact min_le_left _ _
    | succ n hn' ih =>
      have a1 := hq n (by omega)
      have a2 := hq (n + 1) (by omega)
      by_cases hp : p n ≤ T - g / 2
      · refine ih.trans (h.grow n (h2 n (by omega)).1 ?_)
        have := mul_le_mul_of_nonneg_left a1 hB.le
        linarith
      · refine (min_le_right _ _).trans (hn (n + 1) ?_ (a2.trans hε1))
        obtain ⟨lam, e, b1, b2, b3, b4⟩ := h.pull n
        have hlam : 0 ≤ lam := by
          refine le_trans (mul_nonneg h.c_pos.le ?_) b1
          rw [sub_nonneg, div_le_one (by linarith [h.outside n])]
          exact (h.outside n).le
        have b5 := (abs_le.mp (b3.trans ((mul_le_mul_of_nonneg_left a1 hC.le).trans hεC))).1
        rw [b4]
        rcases le_total (p n) T with h5 | h5
        · have := mul_nonneg hlam (sub_nonneg.mpr h5)
          linarith
        · have := mul_le_mul_of_nonneg_right b2 (sub_nonneg.mpr h5)
          linarith
  obtain ⟨η', hη', h3⟩ := uniform (f := fun n => d n - 1) (N := N) (b := min (d N) (1 + η) - 1)
    (by have := lt_min (h.outside N) (by linarith : 1 < 1 + η); linarith) (fun n => by have := h.outside n; linarith)
    (fun n hn' => by have := key n hn'; linarith)
  exact ⟨η', hη', fun n => by have := h3 n; linarith⟩

/-- **convergence, except from the ray behind the ellipse** -/
theorem Free.converges (h : Free l T c C B ν0 Rb p q d) (h0 : ¬(q 0 = 0 ∧ p 0 < 0)) :
    Tendsto (fun n => (p n - T) ^ 2 + q n ^ 2) atTop (𝓝 0) := by
  obtain ⟨η, hη, hd⟩ := h.gap h0
  have hc : 0 < c * (1 - 1 / (1 + η)) := by
    apply mul_pos h.c_pos
    rw [sub_pos, div_lt_one (by linarith)]; linarith
  have hP : Pull l T (c * (1 - 1 / (1 + η))) C 1 1 ν0 Rb p q := by
    refine ⟨h.toTurning, hc, h.C_pos, one_pos, one_pos, fun n => ?_⟩
    obtain ⟨lam, e, b1, b2, b3, b4⟩ := h.pull n
    refine ⟨lam, e, 0, ?_, b2, b3, le_refl _, fun _ _ => rfl, by rw [b4]; ring⟩
    refine le_trans (mul_le_mul_of_nonneg_left ?_ h.c_pos.le) b1
    have := div_le_div_of_nonneg_left zero_le_one (by linarith : 0 < 1 + η) (hd n)
    linarith
  exact hP.converges h0

end DOA.Orbit
