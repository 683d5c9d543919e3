import Verif.Lemmas.Dispatch
import Verif.Model.RealInst
import Mathlib.Tactic.Linarith
import Mathlib.Tactic.LinearCombination
import Mathlib.Tactic.NormNum

/-! The loop of `compute_from_primitives`, hull queries, binary search on arbitrary lists. -/

set_option linter.unusedSectionVars false
set_option linter.unusedSimpArgs false

namespace DOA

section
variable {α : Type} [Add α] [Sub α] [Mul α] [Div α] [Neg α] [Zero α] [One α]
  [LE α] [LT α] [DecidableLE α] [DecidableLT α] [CMath α]

namespace Hull

/-- the smoothed column `c` with neighbours `a` and `b` -/
def mix (c a b : V3 α) : V3 α := { c with x := lit 9 10 * c.x + lit 5 100 * a.x + lit 5 100 * b.x }

/-- what the loop makes of the columns from `cur` on: `prev` is the (smoothed) previous column, `old` the
previous contents of the columns that follow -/
def smoothF (prev cur : V3 α) : List (V3 α) → List (V3 α) → List (V3 α)
  | sp :: sps, o :: old => mix cur prev o :: smoothF (mix cur prev o) sp sps old
  | _, _ => [cur]

theorem smoothCol_eq {l : List (V3 α)} {i j k : Nat} {a b c : V3 α} (hi : l[i]? = some c) (hj : l[j]? = some a)
    (hk : l[k]? = some b) : smoothCol l i j k = .ok (l.set i (mix c a b)) := by
  simp only [smoothCol, Res.index, hi, hj, hk, Res.ok_bind, mix]

theorem smoothCol_inv {l l' : List (V3 α)} {i j k : Nat} (h : smoothCol l i j k = .ok l') :
    ∃ a b c, l[i]? = some c ∧ l[j]? = some a ∧ l[k]? = some b ∧ l' = l.set i (mix c a b) := by
  simp only [smoothCol, Res.bind_eq_ok] at h
  obtain ⟨c, hc, a, ha, b, hb, h⟩ := h
  have key : ∀ {i : Nat} {c : V3 α}, Res.index l i = .ok c → l[i]? = some c := by
    intro i c hc
    unfold Res.index at hc
    cases hq : l[i]? with
    | none => rw [hq] at hc; cases hc
    | some d => rw [hq] at hc; injection hc with hc; rw [hc]
  injection h with h
  exact ⟨a, b, c, key hc, key ha, key hb, h.symm⟩

theorem loop_eq (sps : List (V3 α)) : ∀ (old pre : List (V3 α)) (prev cur : V3 α), sps.length = old.length →
    computeLoop (pre.length + 2) sps (pre ++ prev :: cur :: old) = .ok (pre ++ prev :: smoothF prev cur sps old) := by
  induction sps with
  | nil =>
    intro old pre prev cur h
    cases old with
    | nil => rfl
    | cons o old => cases h
  | cons sp sps ih =>
    intro old pre prev cur h
    cases old with
    | nil => cases h
    | cons o old =>
      have h' : sps.length = old.length := by simpa using h
      have e1 : smoothCol (pre ++ prev :: cur :: o :: old) (pre.length + 2 - 1) (pre.length + 2 - 2) (pre.length + 2) =
          .ok (pre ++ prev :: mix cur prev o :: o :: old) := by
        rw [smoothCol_eq (a := prev) (b := o) (c := cur)]
        · simp [List.set_append]
        · simp [List.getElem?_append]
        · simp [List.getElem?_append]
        · simp [List.getElem?_append]
      have e2 : (pre ++ prev :: mix cur prev o :: o :: old).set (pre.length + 2) sp =
          (pre ++ [prev]) ++ mix cur prev o :: sp :: old := by
        simp [List.set_append]
      have e3 : computeStep (pre.length + 2) sp (pre ++ prev :: cur :: o :: old) =
          .ok ((pre ++ [prev]) ++ mix cur prev o :: sp :: old) := by
        unfold computeStep
        rw [if_pos (by omega), e1, Res.ok_bind]
        simp only []
        rw [if_pos (by simp), e2]
      have := ih old (pre ++ [prev]) (mix cur prev o) sp h'
      simp only [List.length_append, List.length_cons, List.length_nil, Nat.zero_add] at this
      simp only [computeLoop, e3, Res.ok_bind]
      rw [show pre.length + 2 + 1 = pre.length + 1 + 2 by omega, this]
      simp [smoothF]

/-- the result of the whole loop -/
def loopResult : List (V3 α) → List (V3 α) → List (V3 α)
  | s0 :: s1 :: sps, _ :: _ :: old => s0 :: smoothF s0 s1 sps old
  | _, _ => []

theorem loopResult_eq {sps old : List (V3 α)} (h : sps.length = old.length) (h2 : 2 ≤ sps.length) :
    computeLoop 0 sps old = .ok (loopResult sps old) := by
  match sps, old, h, h2 with
  | s0 :: s1 :: sps, o0 :: o1 :: old, h, _ =>
    have h' : sps.length = old.length := by simpa using h
    have := loop_eq sps old [] s0 s1 h'
    simp only [List.length_nil, Nat.zero_add, List.nil_append] at this
    simp only [computeLoop, computeStep, Nat.not_lt_zero, if_false, Res.ok_bind, lt_irrefl]
    simp only [List.length_cons, List.length_set, List.set_cons_zero, List.set_cons_succ,
      show (0 : Nat) < old.length + 1 + 1 by omega, show (0 + 1 : Nat) < old.length + 1 + 1 by omega, if_true, Res.ok_bind,
      show ¬ (1 < 0 + 1) by omega, if_false, loopResult]
    exact this

/-- the surface points of all rays, before smoothing -/
def surfacePoints (k : Hull α) (prims : List (Oracle α)) (ref : V3 α) (phi : List α) : List (V3 α) :=
  phi.map fun p => surfacePoint k.isInside k.minRadius k.base.margin.x p
    (rayPoints ((k.base.setRef ref).setPosition ref).pose ref prims p)

theorem compute_inv {k k' : Hull α} (hk : HullOK k) {prims : List (Oracle α)} {ref : V3 α}
    (h : k.compute prims ref = .ok k') :
    ∃ phi p2, MathTools.linspace (-CMath.pi : α) (CMath.pi - lit 1 10000) k.resolution = .ok phi ∧
      phi.length = k.resolution ∧
      smoothCol (loopResult (surfacePoints k prims ref phi) k.polar) 0 (k.resolution - 1) 1 = .ok p2 ∧
      smoothCol p2 (k.resolution - 1) (k.resolution - 2) 0 = .ok k'.polar ∧
      k'.base = (k.base.setRef ref).setPosition ref ∧ k'.isInside = k.isInside ∧ k'.resolution = k.resolution ∧
      k'.minRadius = k.minRadius ∧
      k'.cart = k'.polar.map fun q => k'.base.pose.apply (MathTools.polarToCartesian q) := by
  obtain ⟨h1, h2, h3⟩ := hk
  obtain ⟨l, hl, hlen, -⟩ := MathTools.linspace_ok (-CMath.pi : α) (CMath.pi - lit 1 10000)
    (k.resolution : Int) (by omega)
  simp only [Int.toNat_natCast] at hlen
  unfold Hull.compute at h
  simp only [hl, Res.ok_bind] at h
  have hs : (surfacePoints k prims ref l).length = k.polar.length := by simp [surfacePoints, hlen, h2]
  have hloop := loopResult_eq hs (by rw [hs]; omega)
  have hsurf : (l.map fun p => surfacePoint k.isInside k.minRadius ((k.base.setRef ref).setPosition ref).margin.x p
    (rayPoints ((k.base.setRef ref).setPosition ref).pose ref prims p)) = surfacePoints k prims ref l := rfl
  rw [hsurf, hloop, Res.ok_bind] at h
  obtain ⟨p2, hp2, h⟩ := Res.bind_eq_ok.mp h
  obtain ⟨p3, hp3, h⟩ := Res.bind_eq_ok.mp h
  injection h with h
  subst h
  exact ⟨l, p2, hl, hlen, hp2, hp3, rfl, rfl, rfl, rfl, rfl⟩

/-! ### angles -/

/-- both angles of a column -/
def angles (q : V3 α) : α × α := (q.y, q.z)

theorem smoothF_angles (sps : List (V3 α)) : ∀ (old : List (V3 α)) (prev cur : V3 α), sps.length = old.length →
    (smoothF prev cur sps old).map angles = (cur :: sps).map angles := by
  induction sps with
  | nil => intro old prev cur h; rfl
  | cons sp sps ih =>
    intro old prev cur h
    cases old with
    | nil => cases h
    | cons o old =>
      have := ih old (mix cur prev o) sp (by simpa using h)
      simp only [smoothF, List.map_cons] at this ⊢
      rw [this]; rfl

theorem loopResult_angles {sps old : List (V3 α)} (h : sps.length = old.length) (h2 : 2 ≤ sps.length) :
    (loopResult sps old).map angles = sps.map angles := by
  match sps, old, h, h2 with
  | s0 :: s1 :: sps, o0 :: o1 :: old, h, _ =>
    simp only [loopResult, List.map_cons]
    rw [smoothF_angles sps old s0 s1 (by simpa using h)]
    simp

theorem smoothCol_angles {l l' : List (V3 α)} {i j k : Nat} (h : smoothCol l i j k = .ok l') :
    l'.map angles = l.map angles := by
  obtain ⟨a, b, c, hc, -, -, rfl⟩ := smoothCol_inv h
  rw [List.map_set]
  have : angles (mix c a b) = angles c := rfl
  rw [this]
  apply List.ext_getElem?
  intro n
  rw [List.getElem?_set]
  split
  · rename_i hin
    subst hin
    split
    · rw [List.getElem?_map, hc]; rfl
    · rename_i hlt
      rw [List.getElem?_eq_none (by omega)]
  · rfl

/-- The angles stored in the columns are those of the surface points: smoothing changes radii only. -/
theorem compute_angles {k k' : Hull α} (hk : HullOK k) {prims : List (Oracle α)} {ref : V3 α}
    (h : k.compute prims ref = .ok k') :
    ∃ phi, MathTools.linspace (-CMath.pi : α) (CMath.pi - lit 1 10000) k.resolution = .ok phi ∧
      k'.polar.map angles = (surfacePoints k prims ref phi).map angles := by
  obtain ⟨phi, p2, h1, h2, h3, h4, -⟩ := compute_inv hk h
  refine ⟨phi, h1, ?_⟩
  have hs : (surfacePoints k prims ref phi).length = k.polar.length := by
    rw [hk.2.1, ← h2]; simp [surfacePoints]
  rw [smoothCol_angles h4, smoothCol_angles h3, loopResult_angles hs (by rw [hs, hk.2.1]; exact hk.1)]

end Hull

/-! ### binary search on arbitrary lists -/

namespace MathTools

theorem lowerBoundLoop_le (l : List α) (v : α) : ∀ (fuel first count : Nat), first + count ≤ l.length →
    lowerBoundLoop l v fuel first count ≤ first + count := by
  intro fuel
  induction fuel with
  | zero => intro first count h; simp [lowerBoundLoop]
  | succ fuel ih =>
    intro first count h
    unfold lowerBoundLoop
    split
    · omega
    · have hm : first + count / 2 < l.length := by omega
      simp only [List.getElem?_eq_getElem hm]
      split
      · have := ih (first + count / 2 + 1) (count - (count / 2 + 1)) (by omega)
        omega
      · have := ih first (count / 2) (by omega)
        omega

/-- if the last element is not below `v` the search finds an element, sorted or not -/
theorem lowerBoundLoop_lt (l : List α) (v : α) : ∀ (fuel first count : Nat), count < fuel → 0 < count →
    first + count ≤ l.length → (∀ w, l[first + count - 1]? = some w → ¬ w < v) →
    lowerBoundLoop l v fuel first count < first + count := by
  intro fuel
  induction fuel with
  | zero => intro first count h; omega
  | succ fuel ih =>
    intro first count hf h0 hb hlast
    unfold lowerBoundLoop
    rw [if_neg (by omega)]
    have hm : first + count / 2 < l.length := by omega
    simp only [List.getElem?_eq_getElem hm]
    split
    · rename_i hlt
      by_cases hc : count - (count / 2 + 1) = 0
      · exfalso
        have : first + count - 1 = first + count / 2 := by omega
        refine hlast l[first + count / 2] ?_ hlt
        rw [this, List.getElem?_eq_getElem hm]
      · have := ih (first + count / 2 + 1) (count - (count / 2 + 1)) (by omega) (by omega) (by omega) (by
          intro w hw
          refine hlast w ?_
          rw [← hw]; congr 1; omega)
        omega
    · have := lowerBoundLoop_le l v fuel first (count / 2) (by omega)
      omega

theorem lowerBound_lt (l : List α) (v : α) (hl : l ≠ []) (h : ∀ w, l.getLast? = some w → ¬ w < v) :
    lowerBound l v < l.length := by
  have h0 : 0 < l.length := List.length_pos_iff.mpr hl
  have := lowerBoundLoop_lt l v (l.length + 1) 0 l.length (by omega) h0 (by omega) (by
    intro w hw
    apply h w
    rw [List.getLast?_eq_getElem?, ← hw]
    congr 1; omega)
  unfold lowerBound
  omega

/-- if all elements but the first are below `v` the search runs past the end -/
theorem lowerBoundLoop_end (l : List α) (v : α) (first0 : Nat) (h : ∀ i w, first0 ≤ i → l[i]? = some w → w < v) :
    ∀ (fuel first count : Nat), count < fuel → first + count = l.length → first0 ≤ first + count / 2 →
      lowerBoundLoop l v fuel first count = l.length := by
  intro fuel
  induction fuel with
  | zero => intro first count hf; omega
  | succ fuel ih =>
    intro first count hf hb hge
    unfold lowerBoundLoop
    split
    · omega
    · have hm : first + count / 2 < l.length := by omega
      simp only [List.getElem?_eq_getElem hm]
      rw [if_pos (h _ _ hge (List.getElem?_eq_getElem hm))]
      exact ih _ _ (by omega) (by omega) (by omega)

theorem lowerBound_end (l : List α) (v : α) (hl : 2 ≤ l.length) (h : ∀ i w, 1 ≤ i → l[i]? = some w → w < v) :
    lowerBound l v = l.length :=
  lowerBoundLoop_end l v 1 h _ 0 l.length (by omega) (by omega) (by omega)

end MathTools

namespace Hull

/-- which column the queries use -/
def column (k : Hull α) (p : V3 α) : Nat :=
  MathTools.lowerBound (k.polar.map (·.z)) (MathTools.cartesianToPolar (k.base.pose.inverse.apply p)).z

theorem closest_eq {k : Hull α} (hk : k.polar ≠ []) (p : V3 α) :
    k.closest p = .ok (MathTools.cartesianToPolar (k.base.pose.inverse.apply p), k.column p,
      (k.column p + 1) % k.polar.length) := by
  simp only [closest, MathTools.findClosest_eq _ _ hk, Res.ok_bind, column]

end Hull

end

end DOA
