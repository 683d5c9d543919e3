import Verif.Lemmas.DblModulation

/-!
# Transfer between ideal doubles and reals: heaps, the loops of `modulate_velocity`; propagation of non-finite values
-/

set_option linter.unusedSectionVars false
set_option linter.unusedSimpArgs false

namespace DOA
open Dbl

/-! ### non-finite values -/

namespace Dbl

/-- infinite or NaN -/
def NF (x : Dbl) : Prop := ∀ r, x ≠ fin r

theorem nf_nan : NF nan := fun _ h => by cases h
theorem nf_pinf : NF pinf := fun _ h => by cases h
theorem nf_ninf : NF ninf := fun _ h => by cases h
theorem nf_signed (r : ℝ) : NF (signed r) := by
  unfold signed
  split
  · exact nf_pinf
  · split
    · exact nf_ninf
    · exact nf_nan

theorem NF.add_left {a : Dbl} (h : NF a) (b : Dbl) : NF (a + b) := by
  show NF (add a b)
  cases a with
  | fin r => exact absurd rfl (h r)
  | _ => cases b <;> simp only [add] <;> first | exact nf_nan | exact nf_pinf | exact nf_ninf

theorem NF.add_right {b : Dbl} (h : NF b) (a : Dbl) : NF (a + b) := by
  show NF (add a b)
  cases b with
  | fin r => exact absurd rfl (h r)
  | _ => cases a <;> simp only [add] <;> first | exact nf_nan | exact nf_pinf | exact nf_ninf

theorem NF.mul_left {a : Dbl} (h : NF a) (b : Dbl) : NF (a * b) := by
  show NF (mul a b)
  cases a with
  | fin r => exact absurd rfl (h r)
  | _ => cases b <;> simp only [mul] <;> first | exact nf_nan | exact nf_pinf | exact nf_ninf | exact nf_signed _

theorem NF.mul_right {b : Dbl} (h : NF b) (a : Dbl) : NF (a * b) := by
  show NF (mul a b)
  cases b with
  | fin r => exact absurd rfl (h r)
  | _ => cases a <;> simp only [mul] <;> first | exact nf_nan | exact nf_pinf | exact nf_ninf | exact nf_signed _

@[simp] theorem nan_add (a : Dbl) : nan + a = nan := by cases a <;> rfl
@[simp] theorem add_nan (a : Dbl) : a + nan = nan := by cases a <;> rfl
@[simp] theorem nan_sub (a : Dbl) : nan - a = nan := by cases a <;> rfl
@[simp] theorem sub_nan (a : Dbl) : a - nan = nan := by cases a <;> rfl
@[simp] theorem nan_mul (a : Dbl) : nan * a = nan := by cases a <;> rfl
@[simp] theorem mul_nan (a : Dbl) : a * nan = nan := by cases a <;> rfl
@[simp] theorem nan_div (a : Dbl) : nan / a = nan := by cases a <;> rfl
@[simp] theorem div_nan (a : Dbl) : a / nan = nan := by cases a <;> rfl
@[simp] theorem neg_nan : -nan = nan := rfl
@[simp] theorem not_nan_lt (a : Dbl) : ¬ nan < a := by cases a <;> exact id
@[simp] theorem not_lt_nan (a : Dbl) : ¬ a < nan := by cases a <;> exact id
@[simp] theorem not_nan_le (a : Dbl) : ¬ nan ≤ a := by cases a <;> exact id
@[simp] theorem not_le_nan (a : Dbl) : ¬ a ≤ nan := by cases a <;> exact id
@[simp] theorem sqrt_nan : CMath.sqrt nan = nan := rfl
@[simp] theorem sin_nan : CMath.sin nan = nan := rfl
@[simp] theorem cos_nan : CMath.cos nan = nan := rfl
@[simp] theorem acos_nan : CMath.acos nan = nan := rfl

theorem NF.mul_self {a : Dbl} (h : NF a) : a = nan ∨ a * a = pinf := by
  cases a with
  | fin r => exact absurd rfl (h r)
  | pinf => exact Or.inr rfl
  | ninf => exact Or.inr rfl
  | nan => exact Or.inl rfl

theorem NF.div_pinf {a : Dbl} (h : NF a) : a / pinf = nan := by
  cases a with
  | fin r => exact absurd rfl (h r)
  | _ => rfl

end Dbl

/-- no component is finite -/
def V3.NF (v : V3 Dbl) : Prop := Dbl.NF v.x ∧ Dbl.NF v.y ∧ Dbl.NF v.z
/-- no entry is finite -/
def M3.NF (m : M3 Dbl) : Prop := V3.NF m.c0 ∧ V3.NF m.c1 ∧ V3.NF m.c2
/-- all components are NaN -/
def V3.allNaN : V3 Dbl := ⟨nan, nan, nan⟩

theorem M3.NF.mulVec {m : M3 Dbl} (h : m.NF) (v : V3 Dbl) : V3.NF (m.mulVec v) := by
  obtain ⟨-, -, h1, h2, h3⟩ := h
  exact ⟨(h1.mul_left _).add_right _, (h2.mul_left _).add_right _, (h3.mul_left _).add_right _⟩

theorem V3.NF.mulVec {v : V3 Dbl} (h : v.NF) (m : M3 Dbl) : V3.NF (m.mulVec v) := by
  obtain ⟨-, -, h3⟩ := h
  exact ⟨(h3.mul_right _).add_right _, (h3.mul_right _).add_right _, (h3.mul_right _).add_right _⟩

theorem M3.NF.mul_left {m : M3 Dbl} (h : m.NF) (n : M3 Dbl) : M3.NF (m.mul n) := ⟨h.mulVec _, h.mulVec _, h.mulVec _⟩
theorem M3.NF.mul_right {n : M3 Dbl} (h : n.NF) (m : M3 Dbl) : M3.NF (m.mul n) :=
  ⟨h.1.mulVec _, h.2.1.mulVec _, h.2.2.mulVec _⟩

theorem M3.inverse_singular {m : M3 ℝ} (h : m.det = 0) : M3.NF (M3.inverse m.toD) := by
  simp only [M3.inverse, M3.toD_det, h, one_def, fin_div_zero]
  have : ∀ x : ℝ, Dbl.NF (fin x * signed 1) := by
    intro x; exact (nf_signed 1).mul_right _
  refine ⟨⟨?_, ?_, ?_⟩, ⟨?_, ?_, ?_⟩, ⟨?_, ?_, ?_⟩⟩ <;> exact (nf_signed 1).mul_right _

theorem V3.NF.normalized {v : V3 Dbl} (h : v.NF) :
    v.normalized.x = nan ∨ v.normalized.y = nan ∨ v.normalized.z = nan := by
  obtain ⟨hx, hy, hz⟩ := h
  unfold V3.normalized
  rcases hx.mul_self with h1 | h1
  · left
    split
    · simp [V3.sdiv, h1]
    · exact h1
  rcases hy.mul_self with h2 | h2
  · right; left
    split
    · simp [V3.sdiv, h2]
    · exact h2
  rcases hz.mul_self with h3 | h3
  · right; right
    split
    · simp [V3.sdiv, h3]
    · exact h3
  have hs : V3.sqNorm v = pinf := by
    simp only [V3.sqNorm, V3.dot, h1, h2, h3]; rfl
  rw [hs, if_pos (show (0 : Dbl) < pinf from trivial)]
  left
  exact hx.div_pinf

theorem M3.mulVec_nan (m : M3 Dbl) {v : V3 Dbl} (h : v.x = nan ∨ v.y = nan ∨ v.z = nan) :
    m.mulVec v = V3.allNaN := by
  rcases h with h | h | h <;> ext <;> simp [M3.mulVec, h, V3.allNaN]

namespace Modulation

theorem angleTerm_nan (f : M3 Dbl) (nrv rv : V3 Dbl) {m : M3 Dbl} (hm : m.NF) (w : Dbl) :
    (angleTerm f nrv rv m w).2 = ⟨nan, nan⟩ := by
  have h1 := (hm.mulVec rv).normalized
  unfold angleTerm
  simp only [M3.mulVec_nan f h1]
  simp [V3.allNaN, V2.normalized, V2.sqNorm, V2.scale]

theorem combine_nan (x v : V3 Dbl) {its : List (Item Dbl)} (c p : Dbl) {i : Item Dbl} (hi : i ∈ its) (hm : i.matrix.NF) :
    combine x v its c p = V3.allNaN := by
  have hlen : (weightObstacles (its.map (·.dist)) c p).length = its.length := by
    unfold weightObstacles
    simp only
    split <;> simp
  have hmem : ∃ w, (i, w) ∈ its.zip (weightObstacles (its.map (·.dist)) c p) := by
    obtain ⟨k, hk, rfl⟩ := List.mem_iff_getElem.mp hi
    refine ⟨(weightObstacles (its.map (·.dist)) c p)[k]'(by omega), ?_⟩
    rw [List.mem_iff_getElem]
    refine ⟨k, by simp [hlen]; exact hk, by simp⟩
  obtain ⟨w, hw⟩ := hmem
  have key : ∀ (f : M3 Dbl) (nrv rv : V3 Dbl) (l : List (Item Dbl × Dbl)) (acc : Dbl × V2 Dbl),
      ((i, w) ∈ l ∨ acc.2 = ⟨nan, nan⟩) →
      (l.foldl (fun (acc : Dbl × V2 Dbl) y =>
        (acc.1 + (angleTerm f nrv rv y.1.matrix y.2).1, acc.2.add (angleTerm f nrv rv y.1.matrix y.2).2)) acc).2
        = ⟨nan, nan⟩ := by
    intro f nrv rv l
    induction l with
    | nil => rintro acc (h | h); · cases h
             · exact h
    | cons b l ih =>
      rintro acc (h | h)
      · rcases List.mem_cons.mp h with h | h
        · subst h
          rw [List.foldl_cons]
          apply ih
          right
          simp only [angleTerm_nan f nrv rv hm]
          simp [V2.add]
        · rw [List.foldl_cons]; exact ih _ (Or.inl h)
      · rw [List.foldl_cons]
        apply ih
        right
        simp [V2.add, h]
  unfold combine
  simp only [key _ _ _ _ _ (Or.inl hw)]
  have hrec : reconstruct (⟨nan, nan⟩ : V2 Dbl) = V3.allNaN := by
    simp [reconstruct, V2.norm, V2.sqNorm, V3.allNaN]
  rw [hrec, M3.mulVec_nan _ (Or.inl rfl)]
  ext <;> simp [V3.allNaN]

theorem finish_nan (r : Option (V3 Dbl)) : finish r V3.allNaN = V3.zero := by
  have h : ∀ r : V3 Dbl, V3.allNaN + r = V3.allNaN := by intro r; ext <;> simp [V3.allNaN]
  have h2 : V3.allNaN.hasNaN = true := rfl
  unfold finish
  cases r with
  | none => simp only [h2, if_true]
  | some r => simp only [h, ite_self, h2, if_true]

/-! ### the first loop, for any scalars -/

section
variable {α : Type} [Add α] [Sub α] [Mul α] [Div α] [Neg α] [Zero α] [One α]
  [LE α] [LT α] [DecidableLE α] [DecidableLT α] [CMath α]

/-- the obstacle as the loop sees it -/
def stage (planar : Bool) (a : Agent α) (o : Obj α) : Obj α :=
  if planar then shifted a.state.position a.state.linearVelocity o else o

/-- the heap after the loop -/
def stageHeap (planar : Bool) (a : Agent α) (h : Heap α) (l : List Ptr) : Heap α :=
  if planar then shiftAll h a.state.position a.state.linearVelocity l else h

def stageItem (planar : Bool) (h : Heap α) (a : Agent α) (p : Ptr) : Res (Item α) := do
  let o ← h.deref p
  let o' := stage planar a o
  let m ← modulationMatrix h a o'
  .ok { base := o'.base, matrix := m.1, basis := m.2.1, dist := m.2.2 }

theorem collect_stage (planar : Bool) (a : Agent α) (h : Heap α) (l : List Ptr) :
    collect planar a h l = (l.mapM (stageItem planar h a)) >>= fun its => .ok (stageHeap planar a h l, its) := by
  cases planar with
  | true => exact collect_true a l h
  | false =>
    have : stageItem false h a = fun p =>
        h.deref p >>= fun o => modulationMatrix h a o >>= fun m => Res.ok (Item.mk o.base m.1 m.2.1 m.2.2) := rfl
    simp only [stageHeap, Bool.false_eq_true, if_false]
    induction l with
    | nil => rfl
    | cons p l ih =>
      simp only [collect, Bool.false_eq_true, if_false, List.mapM_cons, ih, this, Res.ok_bind, bind_assoc, Res.pure_eq]

theorem getElem?_stageHeap (planar : Bool) (a : Agent α) (h : Heap α) {l : List Ptr} {p : Ptr} (hp : p ∈ l) :
    (stageHeap planar a h l)[p]? = (h[p]?).map (stage planar a) := by
  cases planar with
  | true => simp only [stageHeap, if_true, getElem?_shiftAll, hp]; rfl
  | false =>
    have : (stage false a : Obj α → Obj α) = id := rfl
    simp [stageHeap, this]

end
end Modulation

theorem Heap.getElem?_toD (h : Heap ℝ) (p : Ptr) : h.toD[p]? = (h[p]?).map Obj.toD := by
  simp [Heap.toD]

end DOA
