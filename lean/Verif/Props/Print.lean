import Verif.Lemmas.Print
import Verif.Model.RealInst
import Verif.Lemmas.Ellipsoid
import Mathlib.Tactic.IntervalCases

/-!
# C81: the text output shows every stored value
-/

namespace DOA.Props

open DOA DOA.Spec DOA.Print DOA.Ellipsoid

set_option linter.unusedSectionVars false
set_option linter.unusedSimpArgs false

section
variable {α : Type} [Add α] [Sub α] [Mul α] [Div α] [Neg α] [Zero α] [One α]
  [LE α] [LT α] [DecidableLE α] [DecidableLT α] [CMath α]

/-- C81: printing never fails if all primitives exist, no aggregate contains itself and the reference positions are
initialised. -/
theorem C81_total (h : Heap α) (ha : Acyclic h) (hi : ∀ (p : Ptr) o, h[p]? = some o → o.base.refPos ≠ none) (p : Ptr)
    (o : Obj α) (ho : h[p]? = some o) : ∃ t, obj h o = .ok t := by
  obtain ⟨rank, hr⟩ := exists_ranked ha
  have hlen : p < h.length := by
    by_contra hc
    rw [List.getElem?_eq_none (not_lt.mp hc)] at ho
    exact absurd ho (by simp)
  exact objAux_total hr hi h.fuel p o (by have := hr.bound p hlen; simp only [Heap.fuel]; omega) ho

/-- C81: two obstacles with the same text hold the same values. -/
theorem C81_read (h h' : Heap α) (hn : ∀ (p : Ptr) o, h[p]? = some o → OneLine o)
    (hn' : ∀ (p : Ptr) o, h'[p]? = some o → OneLine o) (o o' : Obj α) (ho : OneLine o) (ho' : OneLine o') (t : Text α)
    (ht : obj h o = .ok t) (ht' : obj h' o' = .ok t) : Same h h' o o' :=
  (read_back hn hn' _ _ o o' t t [] [] ho ho' ht ht' (by simp [NoDash]) (by simp [NoDash]) rfl).1

/-- C81: two obstacles that hold the same values have the same text, wherever their primitives are stored. -/
theorem C81_same (h h' : Heap α) (ha : Acyclic h') (hi : ∀ (p : Ptr) o, h'[p]? = some o → o.base.refPos ≠ none)
    (o o' : Obj α) (p' : Ptr) (ho' : h'[p']? = some o') (hs : Same h h' o o') (t : Text α) (ht : obj h o = .ok t) :
    obj h' o' = .ok t := by
  obtain ⟨t', ht'⟩ := C81_total h' ha hi p' o' ho'
  have h1 : objAux h.fuel h' o' = .ok t := objAux_same _ o o' t hs ht
  rw [obj] at ht' ⊢
  have h2 := objAux_mono h.fuel (max h.fuel h'.fuel) (le_max_left _ _) o' t h1
  have h3 := objAux_mono h'.fuel (max h.fuel h'.fuel) (le_max_right _ _) o' t' ht'
  rw [h2] at h3
  rw [ht', ← Res.ok.inj h3]

theorem lines_cut (l : Text α) (hl : Sym.chr '\n' ∉ l) (t : Text α) : lines (l ++ (endl ++ t)) = l :: lines t := by
  induction l with
  | nil => rfl
  | cons x xs ih =>
    have h1 := ih (fun hh => hl (by simp [hh]))
    have h2 : x ≠ .chr '\n' := fun hh => hl (by simp [hh])
    simp only [List.cons_append, lines, h1]

theorem lines_last (l : Text α) (hl : Sym.chr '\n' ∉ l) : lines l = [l] := by
  induction l with
  | nil => rfl
  | cons x xs ih =>
    have h1 := ih (fun hh => hl (by simp [hh]))
    have h2 : x ≠ .chr '\n' := fun hh => hl (by simp [hh])
    simp only [lines, h1]

theorem lines_name (s : String) (hs : '\n' ∉ s.toList) (t : Text α) : lines (str s ++ (endl ++ t)) = str s :: lines t :=
  lines_cut _ (by simpa [str] using hs) t

/-- The line of a pose that shows the orientation. -/
def orientationLine (q : Quat α) : Text α :=
  str "orientation: (" ++ num q.w ++ str ", " ++ num q.x ++ str ", " ++ num q.y ++ str ", " ++ num q.z ++ str ")"
    ++ str " <=> theta: " ++ num q.toAngleAxis.1 ++ str ", " ++ str "axis: " ++ triple q.toAngleAxis.2

theorem break_triple (s : String) (hs : '\n' ∉ s.toList) (v : V3 α) : Sym.chr '\n' ∉ str s ++ triple v := by
  simp [str, triple, num, hs]

theorem break_row (s : String) (hs : '\n' ∉ s.toList) (v : V3 α) : Sym.chr '\n' ∉ str s ++ row v := by
  simp [str, row, num, hs]

theorem break_orientation (q : Quat α) : Sym.chr '\n' ∉ orientationLine q := by
  simp [orientationLine, str, triple, num]

theorem numbers_append (a b : Text α) : numbers (a ++ b) = numbers a ++ numbers b := by simp [numbers]

theorem numbers_str (s : String) : numbers (str s : Text α) = [] := by
  simp [numbers, str]

theorem numbers_num (a : α) : numbers (num a) = [a] := rfl

theorem label_append (s : List Char) (hs : ':' ∉ s) (t : Text α) : label (s.map .chr ++ (.chr ':' :: t)) = s := by
  induction s with
  | nil => rfl
  | cons c cs ih =>
    have h1 : c ≠ ':' := fun hh => hs (by simp [hh])
    simp only [List.map_cons, List.cons_append, label, if_neg h1, ih (fun hh => hs (by simp [hh]))]

theorem entry_line (s : String) (hs : ':' ∉ s.toList) (c : String) (t : Text α) (hc : c.toList.head? = some ':') :
    entry (str (s ++ c) ++ t) = (s.toList, numbers t) := by
  obtain ⟨c', hc'⟩ : ∃ c', c.toList = ':' :: c' := by
    cases h : c.toList with
    | nil => simp [h] at hc
    | cons x xs => rw [h] at hc; simp at hc; exact ⟨xs, by rw [hc]⟩
  simp only [entry, numbers_append, numbers_str, List.nil_append]
  simp only [str, String.toList_append, hc', List.map_append, List.map_cons, List.append_assoc, List.cons_append,
    label_append (α := α) _ hs]

theorem numbers_triple (v : V3 α) : numbers (triple v) = comps v := by
  simp [triple, numbers_append, numbers_str, numbers_num, comps]

theorem numbers_row (v : V3 α) : numbers (row v) = comps v := by
  simp [row, numbers_append, numbers_str, numbers_num, comps]

theorem entry_orientation (q : Quat α) : entry (orientationLine q) =
    ("orientation".toList, [q.w, q.x, q.y, q.z] ++ (q.toAngleAxis.1 :: comps q.toAngleAxis.2)) := by
  have := entry_line (α := α) "orientation" (by decide) ": (" (num q.w ++ str ", " ++ num q.x ++ str ", " ++ num q.y ++
    str ", " ++ num q.z ++ str ")" ++ str " <=> theta: " ++ num q.toAngleAxis.1 ++ str ", " ++ str "axis: " ++
    triple q.toAngleAxis.2) (by decide)
  simp only [orientationLine, List.append_assoc] at this ⊢
  rw [show "orientation: (" = "orientation" ++ ": (" from rfl, this]
  simp [numbers_append, numbers_str, numbers_num, numbers_triple]

theorem entry_triple (s : String) (hs : ':' ∉ s.toList) (v : V3 α) : entry (str (s ++ ": ") ++ triple v) = (s.toList, comps v) := by
  rw [entry_line s hs ": " _ (by decide), numbers_triple]

theorem entry_row (s : String) (hs : ':' ∉ s.toList) (v : V3 α) : entry (str (s ++ ": ") ++ row v) = (s.toList, comps v) := by
  rw [entry_line s hs ": " _ (by decide), numbers_row]

/-- The lines of a state. -/
theorem lines_state (s : State α) (t : Text α) : lines (state s ++ (endl ++ t)) =
    (str "position: " ++ triple s.pose.position) :: orientationLine s.pose.orientation ::
      (str "linear velocity: " ++ triple s.linearVelocity) :: (str "angular velocity: " ++ triple s.angularVelocity) ::
      lines t := by
  have h1 : state s ++ (endl ++ t) = (str "position: " ++ triple s.pose.position) ++ (endl ++
      (orientationLine s.pose.orientation ++ (endl ++ ((str "linear velocity: " ++ triple s.linearVelocity) ++ (endl ++
      ((str "angular velocity: " ++ triple s.angularVelocity) ++ (endl ++ t))))))) := by
    simp only [state, pose, orientationLine, List.append_assoc]
  rw [h1, lines_cut _ (break_triple _ (by decide) _), lines_cut _ (break_orientation _),
    lines_cut _ (break_triple _ (by decide) _), lines_cut _ (break_triple _ (by decide) _)]

/-- The lines every obstacle begins with. -/
def commonEntries (b : Base α) (r : V3 α) : List (List Char × List α) :=
  [("position".toList, comps b.state.pose.position),
   ("orientation".toList, [b.state.pose.orientation.w, b.state.pose.orientation.x, b.state.pose.orientation.y,
      b.state.pose.orientation.z] ++ (b.state.pose.orientation.toAngleAxis.1 :: comps b.state.pose.orientation.toAngleAxis.2)),
   ("linear velocity".toList, comps b.state.linearVelocity), ("angular velocity".toList, comps b.state.angularVelocity),
   ("reference position".toList, comps r), ("safety margin".toList, comps b.margin)]

/-- C81: the lines of a plain obstacle and of a hull: type and name, then every value behind its label. -/
theorem C81_lines (h : Heap α) (o : Obj α) (hk : (∃ b, o = .plain b) ∨ ∃ k, o = .hull k) (r : V3 α)
    (hr : o.base.refPos = some r) (hn : OneLine o) : ∃ t, obj h o = .ok t ∧
      ∃ ls, lines t = (str (o.type ++ " " ++ o.name)) :: ls ∧ ls.map entry = commonEntries o.base r := by
  have key : ∀ (T : String) (b : Base α), '\n' ∉ T.toList → '\n' ∉ b.name.toList → b.refPos = some r →
      ∃ t, base T b = .ok t ∧
        ∃ ls, lines t = (str (T ++ " " ++ b.name)) :: ls ∧ ls.map entry = commonEntries b r := by
    intro T b hT hb hr
    refine ⟨_, base_ok.mpr ⟨r, hr, rfl⟩, ?_⟩
    rw [← List.append_assoc, ← List.append_assoc, show str T ++ str " " ++ str b.name =
      (str (T ++ " " ++ b.name) : Text α) by simp [str], lines_name _ (by simp [hT, hb]), lines_state,
      ← List.append_assoc (str "reference position: "), lines_cut _ (break_triple _ (by decide) _),
      lines_last _ (break_row _ (by decide) _)]
    refine ⟨_, rfl, ?_⟩
    simp only [List.map_cons, List.map_nil, entry_orientation, commonEntries]
    rw [show (str "position: " : Text α) = str ("position" ++ ": ") from rfl, entry_triple _ (by decide),
      show (str "linear velocity: " : Text α) = str ("linear velocity" ++ ": ") from rfl, entry_triple _ (by decide),
      show (str "angular velocity: " : Text α) = str ("angular velocity" ++ ": ") from rfl, entry_triple _ (by decide),
      show (str "reference position: " : Text α) = str ("reference position" ++ ": ") from rfl, entry_triple _ (by decide),
      show (str "safety margin: " : Text α) = str ("safety margin" ++ ": ") from rfl, entry_row _ (by decide)]
  rcases hk with ⟨b, rfl⟩ | ⟨k, rfl⟩
  · exact key "" b (by simp) hn hr
  · exact key "StarShapeHull" k.base (by decide) hn hr

/-- C81: the lines of an ellipsoid. -/
theorem C81_ellipsoid (h : Heap α) (e : Ellipsoid α) (r : V3 α) (hr : e.base.refPos = some r)
    (hn : OneLine (.ellipsoid e)) : ∃ t, obj h (.ellipsoid e) = .ok t ∧
      ∃ ls, lines t = (str ("Ellipsoid " ++ e.base.name)) :: ls ∧
        ls.map entry = commonEntries e.base r ++ [("axis lengths".toList, comps e.axis), ("curvature factor".toList, comps e.curv)] := by
  refine ⟨_, by
    rw [obj, Heap.fuel, objAux, ellipsoid, base_ok.mpr ⟨r, hr, rfl⟩]
    exact rfl, ?_⟩
  simp only [List.append_assoc]
  rw [← List.append_assoc, ← List.append_assoc, show str "Ellipsoid" ++ str " " ++ str e.base.name =
    (str ("Ellipsoid " ++ e.base.name) : Text α) by simp [str], lines_name _ (by
      have : '\n' ∉ e.base.name.toList := hn
      simp [this]), lines_state,
    ← List.append_assoc (str "reference position: "), lines_cut _ (break_triple _ (by decide) _),
    ← List.append_assoc (str "safety margin: "), lines_cut _ (break_row _ (by decide) _),
    ← List.append_assoc (str "axis lengths: "), lines_cut _ (break_triple _ (by decide) _),
    lines_last _ (break_triple _ (by decide) _)]
  refine ⟨_, rfl, ?_⟩
  simp only [List.map_cons, List.map_nil, entry_orientation, commonEntries, List.cons_append, List.nil_append]
  rw [show (str "position: " : Text α) = str ("position" ++ ": ") from rfl, entry_triple _ (by decide),
    show (str "linear velocity: " : Text α) = str ("linear velocity" ++ ": ") from rfl, entry_triple _ (by decide),
    show (str "angular velocity: " : Text α) = str ("angular velocity" ++ ": ") from rfl, entry_triple _ (by decide),
    show (str "reference position: " : Text α) = str ("reference position" ++ ": ") from rfl, entry_triple _ (by decide),
    show (str "safety margin: " : Text α) = str ("safety margin" ++ ": ") from rfl, entry_row _ (by decide),
    show (str "axis lengths: " : Text α) = str ("axis lengths" ++ ": ") from rfl, entry_triple _ (by decide),
    show (str "curvature factor: " : Text α) = str ("curvature factor" ++ ": ") from rfl, entry_triple _ (by decide)]

/-- C81: an aggregate shows what every obstacle shows and then the texts of its primitives in order. -/
theorem C81_aggregate (h : Heap α) (ha : Acyclic h) (hi : ∀ (p : Ptr) o, h[p]? = some o → o.base.refPos ≠ none) (p : Ptr)
    (a : Aggregate α) (hp : h[p]? = some (.aggregate a)) : ∃ b ts, base "Aggregate" a.base = .ok b ∧
      obj h (.aggregate a) = .ok (b ++ str "\nComposed of:\n" ++ (ts.map fun t => str "---\n" ++ t ++ str "\n").flatten) ∧
      List.Forall₂ (fun q t => ∃ o, h[q]? = some o ∧ obj h o = .ok t) a.prims ts := by
  obtain ⟨t, ht⟩ := C81_total h ha hi p _ hp
  rw [obj, Heap.fuel] at ht ⊢
  obtain ⟨b, ps, hb, hps, rfl⟩ := aggregate_ok.mp ht
  have key : ∀ (qs : List Ptr) (ps : List (Text α)), prims h.length h qs = .ok ps →
      ∃ ts, ps = (ts.map fun t => str "---\n" ++ t ++ str "\n") ∧
        List.Forall₂ (fun q t => ∃ o, h[q]? = some o ∧ obj h o = .ok t) qs ts := by
    intro qs
    induction qs with
    | nil => intro ps hps; exact ⟨[], prims_nil.mp hps, .nil⟩
    | cons q qs ih =>
      intro ps hps
      obtain ⟨o, t, ls, hq, ht, hls, rfl⟩ := prims_cons.mp hps
      obtain ⟨ts, h1, h2⟩ := ih ls hls
      exact ⟨t :: ts, by rw [h1]; rfl, .cons ⟨o, hq, objAux_mono _ _ (by simp [Heap.fuel]) o t ht⟩ h2⟩
  obtain ⟨ts, h1, h2⟩ := key _ _ hps
  refine ⟨b, ts, hb, ?_, h2⟩
  rw [ht, h1, List.append_assoc]
  rfl

/-- C81: the text of an agent determines its state and its margin. -/
theorem C81_agent (a a' : Agent α) : agent a = agent a' ↔ a.state = a'.state ∧ a.margin = a'.margin := by
  constructor
  · intro h
    simp only [agent, List.append_assoc, List.append_cancel_left_eq, state_inj, num, List.cons.injEq, Sym.num.injEq] at h
    exact ⟨h.1, h.2.1⟩
  · rintro ⟨h1, h2⟩
    simp only [agent, h1, h2]

/-- C81: the lines of an agent. -/
theorem C81_agent_lines (a : Agent α) : ∃ ls, lines (agent a) = str "Agent" :: ls ∧ ls.map entry =
    [("position".toList, comps a.state.pose.position),
     ("orientation".toList, [a.state.pose.orientation.w, a.state.pose.orientation.x, a.state.pose.orientation.y,
        a.state.pose.orientation.z] ++
        (a.state.pose.orientation.toAngleAxis.1 :: comps a.state.pose.orientation.toAngleAxis.2)),
     ("linear velocity".toList, comps a.state.linearVelocity), ("angular velocity".toList, comps a.state.angularVelocity),
     ("safety margin".toList, [a.margin])] := by
  rw [agent]
  simp only [List.append_assoc]
  rw [lines_name _ (by decide), lines_state, lines_last _ (by simp [str, num])]
  refine ⟨_, rfl, ?_⟩
  simp only [List.map_cons, List.map_nil, entry_orientation]
  rw [show (str "position: " : Text α) = str ("position" ++ ": ") from rfl, entry_triple _ (by decide),
    show (str "linear velocity: " : Text α) = str ("linear velocity" ++ ": ") from rfl, entry_triple _ (by decide),
    show (str "angular velocity: " : Text α) = str ("angular velocity" ++ ": ") from rfl, entry_triple _ (by decide),
    show (str "safety margin: " : Text α) = str ("safety margin" ++ ": ") from rfl,
    entry_line _ (by decide) _ _ (by decide), numbers_num]

/-- C81 needs initialised reference positions: an obstacle made from a name alone, as is the default aggregate with every
hull inside it, prints numbers that were never written. -/
theorem C81_negation_fresh (h : Heap α) (name : String) (m : V3 α) :
    obj h (.plain (Base.mkName name m)) = .ub .uninitialised ∧
    obj h (.ellipsoid (Ellipsoid.ofBase (Base.mkName name m))) = .ub .uninitialised ∧
    obj h (.aggregate Aggregate.default) = .ub .uninitialised :=
  ⟨rfl, rfl, rfl⟩

/-- C81 does not extend to the surface of a hull: hulls of any two surfaces have the same text if the rest is equal. -/
theorem C81_negation_surface (h : Heap α) (k k' : Hull α) (hb : k.base = k'.base) :
    obj h (.hull k) = obj h (.hull k') := by
  show base _ _ = base _ _
  rw [hb]

end

/-- C81: for a unit quaternion, the printed axis is a unit vector, the printed angle is between 0 and π, and turning by
that angle about that axis is what the quaternion does. -/
theorem C81_angle_axis (q : Quat ℝ) (hq : q.w ^ 2 + q.x ^ 2 + q.y ^ 2 + q.z ^ 2 = 1) :
    q.toAngleAxis.2.x ^ 2 + q.toAngleAxis.2.y ^ 2 + q.toAngleAxis.2.z ^ 2 = 1 ∧
    0 ≤ q.toAngleAxis.1 ∧ q.toAngleAxis.1 ≤ Real.pi ∧
    ∀ v, q.rotate v = turned q.toAngleAxis.1 q.toAngleAxis.2 v := by
  have hn2 : V3.norm q.vec ^ 2 = q.x ^ 2 + q.y ^ 2 + q.z ^ 2 := by
    simp only [V3.norm, V3.sqNorm, V3.dot, Quat.vec, sqrt_real]
    rw [Real.sq_sqrt (by nlinarith [sq_nonneg q.x, sq_nonneg q.y, sq_nonneg q.z])]; ring
  have hn0 : 0 ≤ V3.norm q.vec := by
    simp only [V3.norm, sqrt_real]; exact Real.sqrt_nonneg _
  by_cases h0 : V3.norm q.vec = 0
  · have haa : q.toAngleAxis = (0, V3.unitX) := by unfold Quat.toAngleAxis; simp [h0]
    rw [h0] at hn2
    have hx : q.x = 0 := by nlinarith [sq_nonneg q.x, sq_nonneg q.y, sq_nonneg q.z]
    have hy : q.y = 0 := by nlinarith [sq_nonneg q.x, sq_nonneg q.y, sq_nonneg q.z]
    have hz : q.z = 0 := by nlinarith [sq_nonneg q.x, sq_nonneg q.y, sq_nonneg q.z]
    rw [haa]
    refine ⟨by simp [V3.unitX], le_refl _, Real.pi_pos.le, fun v => ?_⟩
    ext <;> simp [Quat.rotate, turned, V3.cross, Quat.vec, V3.unitX, V3.smul, hx, hy, hz]
  · have hpos : 0 < V3.norm q.vec := lt_of_le_of_ne hn0 (Ne.symm h0)
    set n := V3.norm q.vec with hn
    set t := Complex.arg ⟨|q.w|, n⟩ with ht
    have haa : q.toAngleAxis = (2 * t, V3.sdiv q.vec (if q.w < 0 then -n else n)) := by
      unfold Quat.toAngleAxis
      rw [← hn, if_pos (Or.inr hpos)]
      simp only [lit_two, atan2_real, absS_real, ht]
    have hnorm : ‖(⟨|q.w|, n⟩ : ℂ)‖ = 1 := by
      rw [Complex.norm_def, Complex.normSq_mk, abs_mul_abs_self]
      have : q.w * q.w + n * n = 1 := by nlinarith
      rw [this, Real.sqrt_one]
    have hne : (⟨|q.w|, n⟩ : ℂ) ≠ 0 := by
      intro h0; rw [h0] at hnorm; simp at hnorm
    have hs : Real.sin t = n := by rw [ht, Complex.sin_arg, hnorm, div_one]
    have hc : Real.cos t = |q.w| := by rw [ht, Complex.cos_arg hne, hnorm, div_one]
    have hc2 : Real.cos (2 * t) = 1 - 2 * n ^ 2 := by
      rw [Real.cos_two_mul, hc, sq_abs]; nlinarith
    have hs2 : Real.sin (2 * t) = 2 * n * |q.w| := by
      rw [Real.sin_two_mul, hs, hc]
    have ht0 : 0 ≤ t := Complex.arg_nonneg_iff.mpr hn0
    have ht1 : t ≤ Real.pi / 2 := Complex.arg_le_pi_div_two_iff.mpr (Or.inl (abs_nonneg _))
    obtain ⟨s, hs1, hsw⟩ : ∃ s : ℝ, s ^ 2 = 1 ∧ |q.w| = s * q.w ∧ (if q.w < 0 then -n else n) = s * n := by
      rcases lt_or_ge q.w 0 with hw | hw
      · exact ⟨-1, by norm_num, by rw [abs_of_neg hw]; ring, by rw [if_pos hw]; ring⟩
      · exact ⟨1, by norm_num, by rw [abs_of_nonneg hw]; ring, by rw [if_neg (not_lt.mpr hw)]; ring⟩
    have hs0 : s ≠ 0 := by intro h; rw [h] at hs1; norm_num at hs1
    obtain ⟨a, b, c, ha, hb, hc', hx, hy, hz⟩ : ∃ a b c : ℝ, a = q.x / (s * n) ∧ b = q.y / (s * n) ∧ c = q.z / (s * n) ∧
        q.x = s * n * a ∧ q.y = s * n * b ∧ q.z = s * n * c :=
      ⟨_, _, _, rfl, rfl, rfl, by field_simp, by field_simp, by field_simp⟩
    have h1 : a ^ 2 + b ^ 2 + c ^ 2 = 1 := by
      have : n ^ 2 * (a ^ 2 + b ^ 2 + c ^ 2) = n ^ 2 * 1 := by
        rw [hx, hy, hz] at hn2
        linear_combination -hn2 - n ^ 2 * (a ^ 2 + b ^ 2 + c ^ 2) * hs1
      exact mul_left_cancel₀ (by positivity) this
    rw [haa, hsw.2]
    refine ⟨?_, by linarith, by linarith, fun v => ?_⟩
    · simp only [V3.sdiv, Quat.vec, ← ha, ← hb, ← hc']
      exact h1
    · rw [hsw.1] at hs2
      simp only [turned, hc2, hs2, V3.sdiv, Quat.vec, Quat.rotate, ← ha, ← hb, ← hc']
      clear_value n t
      rw [hx, hy, hz]
      ext <;> simp only [V3.cross, V3.smul, V3.add_x, V3.add_y, V3.add_z]
      · linear_combination (-2 * n ^ 2 * v.x) * h1 + (2 * n ^ 2 * (a * (a * v.x + b * v.y + c * v.z) - v.x * (a ^ 2 + b ^ 2 + c ^ 2))) * hs1
      · linear_combination (-2 * n ^ 2 * v.y) * h1 + (2 * n ^ 2 * (b * (a * v.x + b * v.y + c * v.z) - v.y * (a ^ 2 + b ^ 2 + c ^ 2))) * hs1
      · linear_combination (-2 * n ^ 2 * v.z) * h1 + (2 * n ^ 2 * (c * (a * v.x + b * v.y + c * v.z) - v.z * (a ^ 2 + b ^ 2 + c ^ 2))) * hs1

/-! ## Non-vacuity -/

/-- A small world: an ellipsoid and a hull, an aggregate of both, and an aggregate that contains that aggregate. -/
noncomputable def printWorld (w : ℝ) : Heap ℝ :=
  [.ellipsoid ⟨.mkPos "body" ⟨1, 2, 3⟩ (V3.const 1), ⟨2, w, 1⟩, V3.const 1⟩,
   .hull { Hull.mk' true 4 1 with base := .mkPos "room" V3.zero (V3.const 0) },
   .aggregate { (Aggregate.default : Aggregate ℝ) with base := .mkPos "pair" V3.zero (V3.const 0), prims := [0, 1] },
   .aggregate { (Aggregate.default : Aggregate ℝ) with base := .mkPos "all" V3.zero (V3.const 0), prims := [2, 0] }]

theorem printWorld_acyclic (w : ℝ) : Acyclic (printWorld w) := by
  refine ⟨id, ?_⟩
  rintro p q ⟨a, ha, hq⟩
  have hp : p < 4 := by
    by_contra hc
    rw [List.getElem?_eq_none (not_lt.mp hc)] at ha
    exact absurd ha (by simp)
  interval_cases p <;> simp [printWorld] at ha <;> subst ha <;> simp at hq <;> rcases hq with rfl | rfl <;>
    simp [printWorld]

theorem printWorld_objects (w : ℝ) (p : Ptr) (o : Obj ℝ) (ho : (printWorld w)[p]? = some o) :
    OneLine o ∧ o.base.refPos ≠ none := by
  have hp : p < 4 := by
    by_contra hc
    rw [List.getElem?_eq_none (not_lt.mp hc)] at ho
    exact absurd ho (by simp)
  interval_cases p <;> simp [printWorld] at ho <;> subst ho <;>
    exact ⟨by simp [OneLine, Obj.base, Base.mkPos], by simp [Obj.base, Base.mkPos]⟩

/-- The outer aggregate of the small world can be printed, and its text tells the axis length of the ellipsoid two
levels below: worlds with different lengths have different texts. -/
example : (∃ t, obj (printWorld 3) ((printWorld 3)[3]'(by simp [printWorld])) = .ok t) ∧
    obj (printWorld 3) ((printWorld 3)[3]'(by simp [printWorld])) ≠
      obj (printWorld 4) ((printWorld 4)[3]'(by simp [printWorld])) := by
  have hn := fun w p o ho => (printWorld_objects w p o ho).1
  have hi := fun w p o ho => (printWorld_objects w p o ho).2
  obtain ⟨t, ht⟩ := C81_total (printWorld 3) (printWorld_acyclic 3) (hi 3) 3 _ (List.getElem?_eq_getElem (by simp [printWorld]))
  refine ⟨⟨t, ht⟩, fun he => ?_⟩
  have hs := C81_read _ _ (hn 3) (hn 4) _ _ (hn 3 3 _ (List.getElem?_eq_getElem (by simp [printWorld])))
    (hn 4 3 _ (List.getElem?_eq_getElem (by simp [printWorld]))) t ht (he ▸ ht)
  have hs : SameAll (printWorld 3) (printWorld 4) [2, 0] [2, 0] := by
    cases hs with
    | aggregate _ _ _ h => exact h
  cases hs with
  | cons _ _ _ _ o o' _ _ _ hs =>
    cases hs with
    | cons _ _ _ _ o o' h h' hs _ =>
      simp only [printWorld, List.getElem?_cons_zero, Option.some.injEq] at h h'
      subst h
      subst h'
      generalize hA : (3 : ℝ) = A at hs
      generalize hB : (4 : ℝ) = B at hs
      have : A = B := by
        generalize h1 : Obj.ellipsoid (⟨.mkPos "body" ⟨1, 2, A⟩ (V3.const 1), ⟨2, A, 1⟩, V3.const 1⟩ : Ellipsoid ℝ) = x at hs
        generalize h2 : Obj.ellipsoid (⟨.mkPos "body" ⟨1, 2, A⟩ (V3.const 1), ⟨2, B, 1⟩, V3.const 1⟩ : Ellipsoid ℝ) = y at hs
        cases hs with
        | ellipsoid e => rw [← h2] at h1; simpa using h1
        | plain e => rw [← h2] at h1; simpa using h1
        | hull e => simp at h1
        | aggregate e => simp at h1
      rw [← hA, ← hB] at this
      norm_num at this

/-- A turn about the vertical axis, with a negative real part. -/
example : ∃ q : Quat ℝ, q.w ^ 2 + q.x ^ 2 + q.y ^ 2 + q.z ^ 2 = 1 ∧ q.z ≠ 0 ∧ q.w < 0 ∧
    turned q.toAngleAxis.1 q.toAngleAxis.2 ⟨1, 0, 0⟩ = ⟨-(7 / 25), -(24 / 25), 0⟩ := by
  have hq : (-(3 / 5 : ℝ)) ^ 2 + (0 : ℝ) ^ 2 + (0 : ℝ) ^ 2 + (4 / 5 : ℝ) ^ 2 = 1 := by norm_num
  refine ⟨⟨-(3 / 5), 0, 0, 4 / 5⟩, hq, by norm_num, by norm_num, ?_⟩
  rw [← (C81_angle_axis ⟨-(3 / 5), 0, 0, 4 / 5⟩ hq).2.2.2]
  ext <;> simp [Quat.rotate, Quat.vec, V3.cross, V3.smul] <;> norm_num

end DOA.Props
