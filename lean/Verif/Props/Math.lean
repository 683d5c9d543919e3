import Verif.Lemmas.MathTools

/-!
# Properties C13-C18: MathTools
-/

namespace DOA.Props
open DOA.MathTools

/-! ## C13 linspace -/

/-- The points of an even partition of `[a,b]` into `n-1` pieces (specification). -/
noncomputable def evenPoint (a b : ℝ) (n : Nat) (i : Nat) : ℝ := a + (b - a) * (i / (n - 1 : ℝ))

/-- C13: for `num ≥ 2` the result has exactly `num` values and the `i`-th one is the `i`-th point of
the even partition. -/
theorem C13_linspace_even (a b : ℝ) (n : Nat) (hn : 2 ≤ n) :
    ∃ l, linspace a b n = .ok l ∧ l.length = n ∧ ∀ i < n, l[i]? = some (evenPoint a b n i) := by
  obtain ⟨l, h1, h2, h3, h4, h5⟩ := linspace_ok a b (n : Int) (by omega)
  simp only [Int.toNat_natCast] at h2 h4 h5
  refine ⟨l, h1, h2, fun i hi => ?_⟩
  have hn' : (n : ℝ) - 1 ≠ 0 := by
    have : (2 : ℝ) ≤ n := by exact_mod_cast hn
    linarith
  unfold evenPoint
  rcases Nat.eq_zero_or_pos i with rfl | hpos
  · simp [h3]
  · rcases Nat.lt_or_ge (i + 1) n with hlt | hge
    · rw [h5 i hpos hlt]
      simp only [ofInt, lit_real]
      congr 1
      push_cast
      field_simp
    · have hi' : i = n - 1 := by omega
      subst hi'
      rw [h4]
      have : ((n - 1 : ℕ) : ℝ) = (n : ℝ) - 1 := by
        rw [Nat.cast_sub (by omega)]; simp
      rw [this, div_self hn']
      simp

/-- C13: strictly increasing when `start < end`. -/
theorem C13_linspace_increasing (a b : ℝ) (n : Nat) (hn : 2 ≤ n) (hab : a < b) (l : List ℝ)
    (hl : linspace a b n = .ok l) : l.Pairwise (· < ·) := by
  obtain ⟨l', h1, h2, h3⟩ := C13_linspace_even a b n hn
  have hll : l' = l := by rw [h1] at hl; injection hl
  subst hll
  rw [List.pairwise_iff_getElem]
  intro i j hi hj hij
  have ei := h3 i (by omega)
  have ej := h3 j (by omega)
  rw [List.getElem?_eq_getElem hi] at ei
  rw [List.getElem?_eq_getElem hj] at ej
  injection ei with ei
  injection ej with ej
  rw [ei, ej]
  unfold evenPoint
  have hn' : (0 : ℝ) < n - 1 := by
    have : (2 : ℝ) ≤ n := by exact_mod_cast hn
    linarith
  have hij' : (i : ℝ) < j := by exact_mod_cast hij
  have := mul_lt_mul_of_pos_left (div_lt_div_of_pos_right hij' hn') (sub_pos.mpr hab)
  linarith

/-- C13: both ends are the arguments themselves, in *every* arithmetic (also with rounding). -/
theorem C13_linspace_endpoints {α : Type} [Add α] [Sub α] [Mul α] [Div α] [CMath α]
    (a b : α) (n : Int) (hn : 2 ≤ n) :
    ∃ l, linspace a b n = .ok l ∧ l.length = n.toNat ∧ l.head? = some a ∧ l.getLast? = some b := by
  obtain ⟨l, h1, h2, h3, h4, -⟩ := linspace_ok a b n hn
  refine ⟨l, h1, h2, ?_, ?_⟩
  · rw [List.head?_eq_getElem?, h3]
  · rw [List.getLast?_eq_getElem?, h2, h4]

/-- C13: fewer than two points throws (and what is thrown is a pointer). -/
theorem C13_linspace_throws {α : Type} [Add α] [Sub α] [Mul α] [Div α] [CMath α]
    (a b : α) (n : Int) (hn : n < 2) : linspace a b n = .throw .linspacePtr :=
  linspace_throw a b n hn

example : ∃ l, linspace (0 : ℝ) 1 3 = .ok l ∧ l.length = 3 ∧ l[1]? = some (1 / 2) := by
  obtain ⟨l, h1, h2, h3⟩ := C13_linspace_even 0 1 3 (by norm_num)
  refine ⟨l, h1, h2, ?_⟩
  rw [h3 1 (by norm_num)]
  norm_num [evenPoint]

/-! ## C14 gridspace -/

/-- C14: `gridspace` returns `nx * ny` points, the point at `i*ny+j` is `(x_i, y_j)`; it never writes
out of range, in every arithmetic and whatever the uninitialised cells contain. -/
theorem C14_gridspace {α : Type} [Add α] [Sub α] [Mul α] [Div α] [CMath α]
    (junk : V2 α) (s e : α × α) (nx ny : Nat) (hx : 2 ≤ nx) (hy : 2 ≤ ny) :
    ∃ g xs ys, linspace s.1 e.1 nx = .ok xs ∧ linspace s.2 e.2 ny = .ok ys ∧
      gridspace junk s e (nx, ny) = .ok g ∧ g.length = nx * ny ∧
      ∀ i j, i < nx → j < ny → ∃ x y, xs[i]? = some x ∧ ys[j]? = some y ∧
        g[i * ny + j]? = some ⟨x, y⟩ := by
  obtain ⟨xs, hxs, hxl, -⟩ := linspace_ok s.1 e.1 (nx : Int) (by omega)
  obtain ⟨ys, hys, hyl, -⟩ := linspace_ok s.2 e.2 (ny : Int) (by omega)
  simp only [Int.toNat_natCast] at hxl hyl
  have hsz : ((nx : Int) * (ny : Int)).toNat = nx * ny := by
    exact_mod_cast Int.toNat_natCast (nx * ny)
  have hlen : (List.replicate (nx * ny) junk).length = nx * ny := List.length_replicate
  have key := gridLoop_ok ys xs [] (List.replicate (nx * ny) junk) (by rw [hlen, hxl, hyl])
  refine ⟨xs.flatMap (fun x => ys.map (fun y => (⟨x, y⟩ : V2 α))), xs, ys, hxs, hys, ?_, ?_, ?_⟩
  · unfold gridspace
    simp only [hxs, hys, Res.ok_bind, hsz]
    simp only [List.nil_append, List.length_nil] at key
    rw [key]
    simp [hxl, hyl]
  · simp [List.length_flatMap, hxl, hyl]
  · intro i j hi hj
    have hi' : i < xs.length := by omega
    have hj' : j < ys.length := by omega
    refine ⟨xs[i], ys[j], List.getElem?_eq_getElem hi', List.getElem?_eq_getElem hj', ?_⟩
    rw [getElem?_flatMap_const _ ny xs (by intros; simp [hyl]) i j hj]
    simp [List.getElem?_eq_getElem hi', List.getElem?_eq_getElem hj']

/-- C14: a size below 2 in either direction throws. -/
theorem C14_gridspace_throws {α : Type} [Add α] [Sub α] [Mul α] [Div α] [CMath α]
    (junk : V2 α) (s e : α × α) (nx ny : Int) (h : nx < 2 ∨ ny < 2) :
    gridspace junk s e (nx, ny) = .throw .linspacePtr := by
  unfold gridspace
  by_cases hx : nx < 2
  · simp [linspace_throw _ _ _ hx]
  · have hy : ny < 2 := by tauto
    obtain ⟨l, hl, -⟩ := linspace_ok s.1 e.1 nx (by omega)
    simp [hl, linspace_throw _ _ _ hy]

example : ∃ g, gridspace (α := ℝ) ⟨7, 7⟩ (0, 0) (1, 2) (2, 3) = .ok g ∧ g.length = 6 := by
  obtain ⟨g, _, _, _, _, h, hl, _⟩ :=
    C14_gridspace (α := ℝ) ⟨7, 7⟩ (0, 0) (1, 2) 2 3 (by norm_num) (by norm_num)
  exact ⟨g, h, hl⟩

/-! ## C15 polar coordinates -/

/-- C15: cartesian → polar → cartesian is the identity away from the origin. -/
theorem C15_cartesian_round_trip (p : V3 ℝ) (hp : p ≠ ⟨0, 0, 0⟩) :
    polarToCartesian (cartesianToPolar p) = p := by
  obtain ⟨x, y, z⟩ := p
  have hpos : 0 < x * x + y * y + z * z := by
    rcases eq_or_ne x 0 with hx | hx
    · rcases eq_or_ne y 0 with hy | hy
      · rcases eq_or_ne z 0 with hz | hz
        · exact absurd (by simp [hx, hy, hz]) hp
        · have := mul_self_pos.mpr hz; nlinarith [mul_self_nonneg x, mul_self_nonneg y]
      · have := mul_self_pos.mpr hy; nlinarith [mul_self_nonneg x, mul_self_nonneg z]
    · have := mul_self_pos.mpr hx; nlinarith [mul_self_nonneg y, mul_self_nonneg z]
  set r := Real.sqrt (x * x + y * y + z * z) with hr
  have hr0 : 0 < r := Real.sqrt_pos.mpr hpos
  have hrr : r * r = x * x + y * y + z * z := Real.mul_self_sqrt hpos.le
  have hz1 : z / r ≤ 1 := by
    rw [div_le_one hr0]; nlinarith [mul_self_nonneg x, mul_self_nonneg y]
  have hz2 : -1 ≤ z / r := by
    rw [le_div_iff₀ hr0]; nlinarith [mul_self_nonneg x, mul_self_nonneg y]
  have hcos : Real.cos (Real.arccos (z / r)) = z / r := Real.cos_arccos hz2 hz1
  have hsin : r * Real.sin (Real.arccos (z / r)) = ‖(⟨x, y⟩ : ℂ)‖ := by
    rw [Real.sin_arccos, Complex.norm_def, Complex.normSq_mk]
    have e : 1 - (z / r) ^ 2 = (x * x + y * y) / (r * r) := by
      field_simp
      nlinarith
    rw [e, Real.sqrt_div' _ (by positivity), Real.sqrt_mul_self hr0.le]
    field_simp
  have h1 : ‖(⟨x, y⟩ : ℂ)‖ * Real.cos (Complex.arg ⟨x, y⟩) = x := Complex.norm_mul_cos_arg ⟨x, y⟩
  have h2 : ‖(⟨x, y⟩ : ℂ)‖ * Real.sin (Complex.arg ⟨x, y⟩) = y := Complex.norm_mul_sin_arg ⟨x, y⟩
  simp only [polarToCartesian, cartesianToPolar, sqrt_real, acos_real, atan2_real, sin_real, cos_real,
    ← hr]
  ext
  · simp only; rw [hsin, h1]
  · simp only; rw [hsin, h2]
  · simp only; rw [hcos]; field_simp

/-- C15: polar → cartesian → polar is the identity on the regular polar coordinates. -/
theorem C15_polar_round_trip (r theta phi : ℝ) (hr : 0 < r) (ht0 : 0 < theta) (ht1 : theta < Real.pi)
    (hp0 : -Real.pi < phi) (hp1 : phi ≤ Real.pi) :
    cartesianToPolar (polarToCartesian ⟨r, theta, phi⟩) = ⟨r, theta, phi⟩ := by
  have hs : 0 < Real.sin theta := Real.sin_pos_of_pos_of_lt_pi ht0 ht1
  have e : r * Real.sin theta * Real.cos phi * (r * Real.sin theta * Real.cos phi) +
      r * Real.sin theta * Real.sin phi * (r * Real.sin theta * Real.sin phi) +
      r * Real.cos theta * (r * Real.cos theta) = r * r := by
    have h1 := Real.sin_sq_add_cos_sq phi
    have h2 := Real.sin_sq_add_cos_sq theta
    calc _ = r * r * (Real.sin theta ^ 2 * (Real.sin phi ^ 2 + Real.cos phi ^ 2)
            + Real.cos theta ^ 2) := by ring
      _ = r * r := by rw [h1, mul_one, h2, mul_one]
  simp only [polarToCartesian, cartesianToPolar, sqrt_real, acos_real, atan2_real, sin_real, cos_real]
  rw [e, Real.sqrt_mul_self hr.le]
  ext
  · rfl
  · simp only
    rw [mul_div_cancel_left₀ _ hr.ne', Real.arccos_cos ht0.le ht1.le]
  · simp only
    have h := Complex.arg_mul_cos_add_sin_mul_I (r := r * Real.sin theta) (by positivity)
      (θ := phi) ⟨hp0, hp1⟩
    have : (⟨r * Real.sin theta * Real.cos phi, r * Real.sin theta * Real.sin phi⟩ : ℂ)
        = ((r * Real.sin theta : ℝ) : ℂ) * (Complex.cos phi + Complex.sin phi * Complex.I) := by
      apply Complex.ext
      · simp [← Complex.ofReal_cos, ← Complex.ofReal_sin]
      · simp [← Complex.ofReal_cos, ← Complex.ofReal_sin]
    rw [this, h]

example : polarToCartesian (cartesianToPolar (⟨1, 2, 3⟩ : V3 ℝ)) = ⟨1, 2, 3⟩ :=
  C15_cartesian_round_trip _ (by intro h; have := congrArg V3.x h; norm_num at this)

example : cartesianToPolar (polarToCartesian (⟨2, 1, -1⟩ : V3 ℝ)) = ⟨2, 1, -1⟩ := by
  have := Real.two_le_pi
  exact C15_polar_round_trip 2 1 (-1) (by norm_num) (by norm_num) (by linarith) (by linarith)
    (by linarith)

/-! ## C16 find_closest_points -/

/-- C16, the part that holds: on angles sorted in increasing order, the first index is the number of
angles strictly below the query, i.e. the smallest index whose angle is `≥` the query (or the number
of columns if there is none); the second is its cyclic successor and always a valid column; the first
is a valid column iff some angle is `≥` the query.
Full statement (false, see `C16_negation`): both indices are valid columns for every query. -/
theorem C16_find_closest_partial (A : List (V3 ℝ)) (p : V3 ℝ) (hA : A ≠ [])
    (hs : (A.map (·.z)).Pairwise (· ≤ ·)) :
    ∃ i j, findClosestPoints A p 2 = .ok (i, j) ∧
      i ≤ A.length ∧ (∀ k (hk : k < A.length), k < i → A[k].z < p.z) ∧
      (∀ k (hk : k < A.length), i ≤ k → p.z ≤ A[k].z) ∧
      j = (i + 1) % A.length ∧ j < A.length ∧ (i < A.length ↔ ∃ c ∈ A, p.z ≤ c.z) := by
  obtain ⟨h1, h2, h3⟩ := lowerBound_spec (A.map (·.z)) p.z hs
  rw [List.length_map] at h1
  have hlen : 0 < A.length := List.length_pos_iff.mpr hA
  refine ⟨_, _, findClosest_eq A p hA, h1, ?_, ?_, rfl, Nat.mod_lt _ hlen, ?_⟩
  · intro k hk hk2
    have := h2 k (by simpa using hk) hk2
    simpa using this
  · intro k hk hk2
    have := h3 k (by simpa using hk) hk2
    simpa using this
  · constructor
    · intro hi
      refine ⟨A[lowerBound (A.map (·.z)) p.z], List.getElem_mem hi, ?_⟩
      have := h3 _ (by simpa using hi) (le_refl _)
      simpa using this
    · rintro ⟨c, hc, hpc⟩
      obtain ⟨k, hk, rfl⟩ := List.getElem_of_mem hc
      by_contra hcon
      have := h2 k (by simpa using hk) (by omega)
      rw [List.getElem_map] at this
      exact absurd hpc (not_le.mpr this)

/-- C16 is false: a query angle above every surface angle gets the index one past the last column. -/
theorem C16_negation : ∃ (A : List (V3 ℝ)) (p : V3 ℝ), A ≠ [] ∧ (A.map (·.z)).Pairwise (· ≤ ·) ∧
    ∃ i j, findClosestPoints A p 2 = .ok (i, j) ∧ ¬ i < A.length := by
  refine ⟨[⟨1, 0, -1⟩, ⟨1, 0, 1⟩], ⟨1, 0, 2⟩, by simp, by simp, ?_⟩
  obtain ⟨i, j, h, -, -, -, -, -, hiff⟩ := C16_find_closest_partial
    [⟨1, 0, -1⟩, ⟨1, 0, 1⟩] ⟨1, 0, 2⟩ (by simp) (by simp)
  refine ⟨i, j, h, ?_⟩
  rw [hiff]
  rintro ⟨c, hc, hle⟩
  simp at hc
  rcases hc with rfl | rfl <;> norm_num at hle

/-- C16: an empty matrix makes the remainder divide by zero. -/
theorem C16_empty (p : V3 ℝ) : findClosestPoints [] p 2 = .ub .modZero := by
  simp [findClosestPoints, coord]

/-! ## C17 sorted_cols_by_theta -/

/-- C17: the same columns, with non-decreasing second coordinate. -/
theorem C17_sorted_cols (A : List (V3 ℝ)) :
    (sortedColsByTheta A).Perm A ∧ (sortedColsByTheta A).Pairwise (fun a b => a.y ≤ b.y) :=
  ⟨sortBy_perm _ _, sortBy_key_sorted (fun v : V3 ℝ => v.y) A⟩

example : sortedColsByTheta [(⟨1, 3, 0⟩ : V3 ℝ), ⟨2, 1, 0⟩] = [⟨2, 1, 0⟩, ⟨1, 3, 0⟩] := by
  simp [sortedColsByTheta, sortBy, insertBy, compareTheta]

/-! ## C18 rand_float, sign -/

/-- C18: for every value `rand()` may return, `rand_float(a,b)` lies between `a` and `b`. -/
theorem C18_rand_float_range (r M : Nat) (hM : 0 < M) (hr : r ≤ M) (a b : ℝ) :
    min a b ≤ randFloat r M a b ∧ randFloat r M a b ≤ max a b := by
  have hM' : (0 : ℝ) < M := by exact_mod_cast hM
  have e : randFloat r M a b = ((r : ℝ) / M) * (a - b) + b := by
    simp [randFloat, ofInt]
  have h0 : 0 ≤ (r : ℝ) / M := by positivity
  have h1 : (r : ℝ) / M ≤ 1 := by
    rw [div_le_one hM']; exact_mod_cast hr
  rw [e]
  generalize (r : ℝ) / M = t at h0 h1
  rcases le_total a b with h | h
  · rw [min_eq_left h, max_eq_right h]
    constructor <;> nlinarith
  · rw [min_eq_right h, max_eq_left h]
    constructor <;> nlinarith

/-- C18: both ends are reached. -/
theorem C18_rand_float_ends (M : Nat) (hM : 0 < M) (a b : ℝ) :
    randFloat 0 M a b = b ∧ randFloat M M a b = a := by
  have hM' : (M : ℝ) ≠ 0 := by
    have : (0 : ℝ) < M := by exact_mod_cast hM
    exact this.ne'
  constructor
  · simp [randFloat, ofInt]
  · simp [randFloat, ofInt, div_self hM']

/-- C18: `sign` is the signum. -/
theorem C18_sign (v : ℝ) : (0 < v → sign v = 1) ∧ (v = 0 → sign v = 0) ∧ (v < 0 → sign v = -1) := by
  refine ⟨fun h => ?_, fun h => ?_, fun h => ?_⟩
  · simp [sign, h, not_lt.mpr h.le]
  · simp [sign, h]
  · simp [sign, h, not_lt.mpr h.le]

example : min (2 : ℝ) 5 ≤ randFloat 3 10 2 5 := (C18_rand_float_range 3 10 (by norm_num) (by norm_num) 2 5).1

end DOA.Props
