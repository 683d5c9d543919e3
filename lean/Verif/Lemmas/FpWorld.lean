import Verif.Lemmas.FpModulation
import Verif.Spec.Fp
import Verif.Spec.Ellipsoid

/-!
# Convergence of finite precision arithmetic: heaps and `modulate_velocity`
-/

set_option linter.unusedSectionVars false
set_option linter.unusedSimpArgs false

namespace DOA
open Filter Topology

variable {F : Filter Arith} [Fine F]

/-! ### the calls on ellipsoids -/

namespace Modulation
section
variable {α : Type} [Add α] [Sub α] [Mul α] [Div α] [Neg α] [Zero α] [One α]
  [LE α] [LT α] [DecidableLE α] [DecidableLT α] [CMath α]

theorem stageItem_ell {h : Heap α} {p : Ptr} {er : Ellipsoid α × V3 α} (hl : Leads h p er) (a : Agent α) :
    stageItem false h a p = .ok (ellItem er.1 er.2 a.state.position a.margin) := by
  have h1 : h.deref p = .ok (.ellipsoid er.1) := by unfold Heap.deref; rw [hl.1]
  have h2 : (Obj.ellipsoid er.1).base.ref = .ok er.2 := by
    show er.1.base.ref = _
    unfold Base.ref; rw [hl.2]
  unfold stageItem
  rw [h1]
  simp only [Res.ok_bind, stage, Bool.false_eq_true, if_false]
  unfold modulationMatrix basisMatrices
  rw [h2]
  simp only [Heap.normalToAgent, Heap.distanceToAgent, Heap.distanceToPoint, Res.ok_bind]
  rfl

theorem repulsion_ell {h : Heap α} {p : Ptr} {er : Ellipsoid α × V3 α} (hl : Leads h p er) (x : V3 α) (m : α) :
    (h.deref p >>= fun o => h.generateRepulsion o x m (lit 11 10)) = .ok (ellRep er.1 er.2 x m) := by
  have h1 : h.deref p = .ok (.ellipsoid er.1) := by unfold Heap.deref; rw [hl.1]
  have h2 : er.1.base.ref = .ok er.2 := by
    unfold Base.ref; rw [hl.2]
  rw [h1]
  simp only [Res.ok_bind]
  unfold Heap.generateRepulsion ellRep
  simp only [Heap.distanceToAgent, Heap.distanceToPoint, Res.ok_bind, Heap.repulsionVector,
    Ellipsoid.repulsionVector, h2, Ellipsoid.repulsionFactor]
  split <;> rfl

theorem repulsionSum_ell {h : Heap α} (a : Agent α) {l : List Ptr} {es : List (Ellipsoid α × V3 α)}
    (hl : List.Forall₂ (Leads h) l es) :
    repulsionSum h a l = .ok ((es.map fun er => ellRep er.1 er.2 a.state.position a.margin).foldl (· + ·) V3.zero) := by
  unfold repulsionSum
  generalize (V3.zero : V3 α) = acc
  induction hl generalizing acc with
  | nil => rfl
  | cons hp _ ih =>
    have := repulsion_ell hp a.state.position a.margin
    rw [List.foldlM_cons]
    simp only [List.map_cons, List.foldl_cons]
    rw [← ih, ← bind_assoc, this]
    rfl

theorem mapM_of_forall₂ {β γ δ : Type} {f : β → Res γ} {g : δ → γ} {R : β → δ → Prop} (hf : ∀ b d, R b d → f b = .ok (g d))
    {l : List β} {l' : List δ} (h : List.Forall₂ R l l') : l.mapM f = .ok (l'.map g) := by
  induction h with
  | nil => rfl
  | cons h1 _ ih => simp only [List.mapM_cons, hf _ _ h1, ih, Res.ok_bind, List.map_cons, Res.pure_eq]

/-- `modulate_velocity` in an environment of ellipsoids, without the shift of the reference points, every obstacle taken
into account. -/
def ellOut (es : List (Ellipsoid α × V3 α)) (x v : V3 α) (m : α) (rep : Bool) (c p : α) : V3 α :=
  finish (if rep then some ((es.map fun er => ellRep er.1 er.2 x m).foldl (· + ·) V3.zero) else none)
    (combine x v (es.map fun er => ellItem er.1 er.2 x m) c p)

theorem modulate_ell {h : Heap α} {a : Agent α} {e : Env} {es : List (Ellipsoid α × V3 α)} (hne : e.list ≠ [])
    (hl : List.Forall₂ (Leads h) e.list es) (rep : Bool) (c p : α) :
    modulateVelocity h a e false rep false c p
      = .ok (h, ellOut es a.state.position a.state.linearVelocity a.margin rep c p) := by
  have hemp : e.list.isEmpty = false := by
    cases hh : e.list with
    | nil => exact absurd hh hne
    | cons => rfl
  have hitems := mapM_of_forall₂ (fun b d hbd => stageItem_ell hbd a) hl
  unfold modulateVelocity ellOut
  simp only [hemp, Bool.false_eq_true, if_false, Res.ok_bind, Bool.not_true, collect_stage, hitems, stageHeap]
  cases rep with
  | false => rfl
  | true => simp only [if_true, repulsionSum_ell a hl, Res.ok_bind]

end

/-! ### convergence -/

structure ConvER (F : Filter Arith) (e : ∀ A, Ellipsoid (Fp A) × V3 (Fp A)) (e0 : Ellipsoid ℝ × V3 ℝ) : Prop where
  ell : ∃ k1 k2 k3, ConvE F (fun A => (e A).1) e0.1 k1 k2 k3
  ref : ConvV F (fun A => (e A).2) e0.2

variable {e : ∀ A, Ellipsoid (Fp A) × V3 (Fp A)} {e0 : Ellipsoid ℝ × V3 ℝ} {x v : ∀ A, V3 (Fp A)} {x0 v0 : V3 ℝ} {m c p : Fam}
  {m0 c0 p0 : ℝ}

theorem conv_ellItem (h : ConvER F e e0) (hx : ConvV F x x0) (hm : Conv F m m0) (hc : Clear e0.1 e0.2 x0 m0) :
    ConvI F (fun A => ellItem (e A).1 (e A).2 (x A) (m A)) (ellItem e0.1 e0.2 x0 m0) := by
  obtain ⟨k1, k2, k3, he⟩ := h.ell
  have hn := he.normal hx hm hc.lengths hc.normal
  have hd := he.distance hx (ConvV.const hm) hc.lengths
  have hr := conv_referenceDirection he.base.pose hx h.ref hc.direction
  have hb := conv_referenceBasis hn hr hc.tangent
  exact ⟨he.base, conv_product he.base.pose.orientation hb (conv_eigenvalues hd) hc.regular hc.rotation,
    conv_orthogonalBasis hn hc.tangent, hd⟩

theorem conv_ellRep (h : ConvER F e e0) (hx : ConvV F x x0) (hm : Conv F m m0) (hc : ClearRep e0.1 x0 m0) :
    ConvV F (fun A => ellRep (e A).1 (e A).2 (x A) (m A)) (ellRep e0.1 e0.2 x0 m0) := by
  obtain ⟨k1, k2, k3, he⟩ := h.ell
  obtain ⟨h1, h2, h3⟩ := hc
  have hd := he.distance hx (ConvV.const hm) h1
  have ht := Conv.lit (F := F) 11 10
  have h4 : (lit 11 10 : ℝ) = 11 / 10 := by simp
  unfold ellRep
  rcases lt_or_gt_of_ne h2 with h5 | h5
  · rw [if_pos (by rw [h4]; exact h5)]
    exact ConvV.ite_true (ConvV.smul ((Conv.lit (F := F) 2 1).div hd h3) (hx.sub h.ref)) (hd.lt ht (by rw [h4]; exact h5))
  · rw [if_neg (by rw [h4]; exact h5.not_gt)]
    exact ConvV.ite_false ConvV.zero (hd.not_lt ht (by rw [h4]; exact h5))


theorem finish_real (r : Option (V3 ℝ)) (v : V3 ℝ) :
    finish r v = (match r with | none => v | some r => if lit 1 10000 < r.norm then v + r else v) := by
  have : ∀ u : V3 ℝ, u.hasNaN = false := fun u => by simp [V3.hasNaN]
  cases r <;> simp only [finish, this, Bool.false_eq_true, if_false]

theorem conv_ellOut {es : List (∀ A, Ellipsoid (Fp A) × V3 (Fp A))} {es0 : List (Ellipsoid ℝ × V3 ℝ)}
    (he : List.Forall₂ (ConvER F) es es0) (hx : ConvV F x x0) (hv : ConvV F v v0) (hm : Conv F m m0) (hc : Conv F c c0) (hp : Conv F p p0)
    (rep : Bool) (hr : Regular es0 x0 v0 m0 rep c0 p0) :
    ConvV F (fun A => ellOut (es.map (fun er => er A)) (x A) (v A) (m A) rep (c A) (p A)) (ellOut es0 x0 v0 m0 rep c0 p0) := by
  have hitems : List.Forall₂ (ConvI F) (es.map fun er A => ellItem (er A).1 (er A).2 (x A) (m A))
      (es0.map fun er => ellItem er.1 er.2 x0 m0) := by
    rw [List.forall₂_map_left_iff, List.forall₂_map_right_iff]
    exact (forall₂_right he hr.clear).imp fun _ _ h => conv_ellItem h.1 hx hm h.2
  have hcomb := conv_combine hx hv hitems hc hp hr.decided
  have e1 : ∀ A, (es.map fun er A => ellItem (er A).1 (er A).2 (x A) (m A)).map (fun i => i A)
      = (es.map (fun er => er A)).map fun er => ellItem er.1 er.2 (x A) (m A) := by
    intro A; rw [List.map_map, List.map_map]; rfl
  simp only [e1] at hcomb
  cases rep with
  | false =>
    unfold ellOut
    rw [finish_real]
    simp only [Bool.false_eq_true, if_false]
    refine hcomb.congr ?_
    filter_upwards [hcomb.noNaN] with A h1
    unfold finish
    simp only [h1, Bool.false_eq_true, if_false]
  | true =>
    have hreps : List.Forall₂ (ConvV F) (es.map fun er A => ellRep (er A).1 (er A).2 (x A) (m A))
        (es0.map fun er => ellRep er.1 er.2 x0 m0) := by
      rw [List.forall₂_map_left_iff, List.forall₂_map_right_iff]
      exact (forall₂_right he (hr.clearRep rfl)).imp fun _ _ h => conv_ellRep h.1 hx hm h.2
    have hsum := conv_foldl (X := fun A => V3 (Fp A)) (Y := fun A => V3 (Fp A)) (ConvV F) (ConvV F) (fun _ a b => a + b)
      (fun a b => a + b) (fun _ _ _ _ h1 h2 => h1.add h2) _ _ hreps _ _ ConvV.zero
    have e2 : ∀ A, (es.map fun er A => ellRep (er A).1 (er A).2 (x A) (m A)).map (fun i => i A)
        = (es.map (fun er => er A)).map fun er => ellRep er.1 er.2 (x A) (m A) := by
      intro A; rw [List.map_map, List.map_map]; rfl
    simp only [e2] at hsum
    have ht := Conv.lit (F := F) 1 10000
    have h4 : (lit 1 10000 : ℝ) = 1 / 10000 := by simp
    unfold ellOut
    rw [finish_real]
    simp only [if_true]
    have key : ConvV F (fun A => if lit 1 10000 < (((es.map (fun er => er A)).map fun er =>
        ellRep er.1 er.2 (x A) (m A)).foldl (· + ·) V3.zero).norm then combine (x A) (v A) ((es.map (fun er => er A)).map fun er => ellItem er.1 er.2 (x A) (m A)) (c A) (p A) +
          (((es.map (fun er => er A)).map fun er => ellRep er.1 er.2 (x A) (m A)).foldl (· + ·) V3.zero)
        else combine (x A) (v A) ((es.map (fun er => er A)).map fun er => ellItem er.1 er.2 (x A) (m A)) (c A) (p A))
        (if lit 1 10000 < ((es0.map fun er => ellRep er.1 er.2 x0 m0).foldl (· + ·) V3.zero).norm then
          combine x0 v0 (es0.map fun er => ellItem er.1 er.2 x0 m0) c0 p0 +
            ((es0.map fun er => ellRep er.1 er.2 x0 m0).foldl (· + ·) V3.zero)
          else combine x0 v0 (es0.map fun er => ellItem er.1 er.2 x0 m0) c0 p0) := by
      rcases lt_or_gt_of_ne (hr.push rfl) with h5 | h5
      · rw [if_neg (by rw [h4]; exact h5.not_gt)]
        exact ConvV.ite_false hcomb (ht.not_lt hsum.norm (by rw [h4]; exact h5))
      · rw [if_pos (by rw [h4]; exact h5)]
        exact ConvV.ite_true (hcomb.add hsum) (ht.lt hsum.norm (by rw [h4]; exact h5))
    refine key.congr ?_
    filter_upwards [key.noNaN] with A h1
    unfold finish
    simp only [h1, Bool.false_eq_true, if_false]

/-! ### loaded data -/

theorem conv_v3 (v : V3 ℝ) : ConvV F (fun A => v.fp A) v := ⟨Conv.rnd _, Conv.rnd _, Conv.rnd _⟩
theorem conv_quat (q : Quat ℝ) : ConvQ F (fun A => q.fp A) q := ⟨Conv.rnd _, Conv.rnd _, Conv.rnd _, Conv.rnd _⟩
theorem conv_pose (p : Pose ℝ) : ConvP F (fun A => p.fp A) p := ⟨conv_v3 _, conv_quat _⟩
theorem conv_base (b : Base ℝ) : ConvB F (fun A => b.fp A) b := ⟨conv_pose _, conv_v3 _, conv_v3 _, conv_v3 _⟩

theorem conv_ell (e : Ellipsoid ℝ) (r : V3 ℝ) {k1 k2 k3 : ℕ} (hk : Spec.HasCurv e k1 k2 k3)
    (hs : k1 ≤ 2 ^ 52 ∧ k2 ≤ 2 ^ 52 ∧ k3 ≤ 2 ^ 52) : ConvER F (fun A => (e.fp A, r.fp A)) (e, r) := by
  refine ⟨⟨k1, k2, k3, conv_base _, conv_v3 _, ?_, hk.1, hk.2, by omega, by omega, by omega⟩, conv_v3 _⟩
  filter_upwards [sound_fine] with A hA
  show e.curv.fp A = _
  rw [hk.1]
  unfold V3.fp Arith.ld
  rw [hA.nat (by omega), hA.nat (by omega), hA.nat (by omega)]

theorem leads_fp {h : Heap ℝ} {p : Ptr} {er : Ellipsoid ℝ × V3 ℝ} (hl : Leads h p er) (A : Arith) :
    Leads (h.fp A) p (er.1.fp A, er.2.fp A) := by
  constructor
  · unfold Heap.fp; rw [List.getElem?_map, hl.1]; rfl
  · show (er.1.base.fp A).refPos = _
    unfold Base.fp; rw [hl.2]; rfl

end Modulation
end DOA
