import Verif.Spec.Origin
import Verif.Lemmas.AddressLoop
import Verif.Lemmas.View
import Verif.Lemmas.Dispatch
import Verif.Lemmas.Sort

/-!
# Helper lemmas for the change of the origin
-/

namespace DOA
open DOA.Spec DOA.Modulation DOA.Ellipsoid DOA.Aggregation
set_option linter.unnecessarySeqFocus false
set_option linter.unusedSectionVars false
set_option linter.unusedSimpArgs false

namespace Origin

theorem map_ok_eq {β γ : Type} {f : β → γ} {x : Res β} {b : β} (h : x = .ok b) : f <$> x = .ok (f b) := by
  rw [h]; rfl

/-! ## points -/

theorem sub_moved (x y t : V3 ℝ) : (x + t) - (y + t) = x - y := by v3_ring
theorem add_moved (x v t : V3 ℝ) : (x + t) + v = (x + v) + t := by v3_ring

theorem inv_moved (t : V3 ℝ) (b : Base ℝ) (x : V3 ℝ) :
    (movedBase t b).pose.inverse.apply (x + t) = b.pose.inverse.apply x := by
  have h : ∀ (q : Quat ℝ) (p : V3 ℝ), q.rotate (x + t) + q.rotate (-(p + t)) = q.rotate x + q.rotate (-p) := by
    intro q p
    rw [Quat.rotate_add, Quat.rotate_neg, Quat.rotate_add, Quat.rotate_neg]
    v3_ring
  exact h _ _

theorem apply_moved (t : V3 ℝ) (b : Base ℝ) (x : V3 ℝ) : (movedBase t b).pose.apply x = b.pose.apply x + t := by
  have h : ∀ r p : V3 ℝ, r + (p + t) = r + p + t := by intros; v3_ring
  exact h _ _

theorem position_moved (t : V3 ℝ) (b : Base ℝ) : (movedBase t b).position = b.position + t := rfl

theorem ref_moved (t : V3 ℝ) (b : Base ℝ) : (movedBase t b).ref = (· + t) <$> b.ref := by
  unfold Base.ref movedBase
  cases b.refPos <;> rfl

theorem setRef_moved (t : V3 ℝ) (b : Base ℝ) (v : V3 ℝ) : (movedBase t b).setRef (v + t) = movedBase t (b.setRef v) := rfl
theorem setPosition_moved (t : V3 ℝ) (b : Base ℝ) (v : V3 ℝ) :
    (movedBase t b).setPosition (v + t) = movedBase t (b.setPosition v) := rfl

/-! ## ellipsoids -/

/-- An ellipsoid seen from another origin. -/
def movedE (t : V3 ℝ) (e : Ellipsoid ℝ) : Ellipsoid ℝ := { e with base := movedBase t e.base }

theorem distanceE (t : V3 ℝ) (e : Ellipsoid ℝ) (x m : V3 ℝ) : (movedE t e).distanceToPoint (x + t) m = e.distanceToPoint x m := by
  simp only [Ellipsoid.distanceToPoint, movedE, inv_moved]
  rfl

theorem normalE (t : V3 ℝ) (e : Ellipsoid ℝ) (x : V3 ℝ) (m : ℝ) : (movedE t e).normalToAgent (x + t) m = e.normalToAgent x m := by
  simp only [Ellipsoid.normalToAgent, movedE, inv_moved]
  rfl

theorem insideE (t : V3 ℝ) (e : Ellipsoid ℝ) (x : V3 ℝ) : (movedE t e).pointIsInside (x + t) = e.pointIsInside x := by
  simp only [Ellipsoid.pointIsInside, movedE, inv_moved]
  rfl

theorem repulsionE (t : V3 ℝ) (e : Ellipsoid ℝ) (x : V3 ℝ) (m : ℝ) :
    (movedE t e).repulsionVector (x + t) m = e.repulsionVector x m := by
  simp only [Ellipsoid.repulsionVector, Ellipsoid.repulsionFactor, distanceE]
  rw [show (movedE t e).base = movedBase t e.base from rfl, ref_moved]
  cases e.base.ref with
  | ok r => simp only [Res.map_ok, Res.ok_bind, sub_moved]
  | throw x => rfl
  | ub u => rfl

theorem sampleE (t : V3 ℝ) {e : Ellipsoid ℝ} (he : t.z = 0 ∨ ZRotated e) (o : Ellipsoid ℝ) (l : V3 ℝ) (th a : ℝ) :
    (movedE t e).pointIsInside ((movedE t o).sampleAt l th a) = e.pointIsInside (o.sampleAt l th a) := by
  have h : (movedE t o).sampleAt l th a = (⟨(o.sampleAt l th a).x, (o.sampleAt l th a).y, -t.z⟩ : V3 ℝ) + t := by
    ext
    · simp [Ellipsoid.sampleAt, movedE, movedBase, Base.position, State.position]; ring
    · simp [Ellipsoid.sampleAt, movedE, movedBase, Base.position, State.position]; ring
    · simp [Ellipsoid.sampleAt]
  rw [h, insideE]
  rcases he with he | he
  · rw [he, neg_zero]
    rfl
  · exact inside_xy he rfl rfl

theorem intersectE (t : V3 ℝ) {e : Ellipsoid ℝ} (he : t.z = 0 ∨ ZRotated e) (o : Ellipsoid ℝ) :
    (movedE t e).isIntersectingEllipsoid (movedE t o) = e.isIntersectingEllipsoid o := by
  unfold Ellipsoid.isIntersectingEllipsoid
  rw [show (movedE t o).base.position = o.base.position + t from rfl,
    show (movedE t e).base.position = e.base.position + t from rfl, insideE, insideE]
  split
  · rfl
  split
  · rfl
  unfold Ellipsoid.samples
  cases MathTools.linspace (0 : ℝ) (lit 2 1 * CMath.pi) (100 : Nat) with
  | throw x => rfl
  | ub u => rfl
  | ok al =>
    simp only [Res.ok_bind, List.any_map]
    congr 1
    congr 1
    funext a
    exact sampleE t he o _ _ a

theorem pointsE (t : V3 ℝ) (e : Ellipsoid ℝ) (x y : V3 ℝ) :
    (movedE t e).intersectionPoints (x + t) (y + t) =
      ((e.intersectionPoints x y).1,
        if (e.intersectionPoints x y).1 then (e.intersectionPoints x y).2.1 + t else V3.zero,
        if (e.intersectionPoints x y).1 then (e.intersectionPoints x y).2.2 + t else V3.zero) := by
  simp only [Ellipsoid.intersectionPoints, movedE, inv_moved, apply_moved]
  simp only [show (movedBase t e.base).margin = e.base.margin from rfl]
  split <;> rfl

/-! ## obstacles of any kind -/

theorem base_moved (t : V3 ℝ) (o : Obj ℝ) : (movedObj t o).base = movedBase t o.base := by cases o <;> rfl
theorem name_moved (t : V3 ℝ) (o : Obj ℝ) : (movedObj t o).name = o.name := by cases o <;> rfl
theorem objPosition_moved (t : V3 ℝ) (o : Obj ℝ) : (movedObj t o).position = o.position + t := by cases o <;> rfl

theorem closed_moved (t : V3 ℝ) (o : Obj ℝ) : (movedObj t o).isClosed = o.isClosed := by cases o <;> rfl

theorem points_moved (t : V3 ℝ) (o : Obj ℝ) (x y : V3 ℝ) :
    (movedObj t o).intersectionPoints (x + t) (y + t) =
      ((o.intersectionPoints x y).1,
        if (o.intersectionPoints x y).1 then (o.intersectionPoints x y).2.1 + t else V3.zero,
        if (o.intersectionPoints x y).1 then (o.intersectionPoints x y).2.2 + t else V3.zero) := by
  cases o with
  | ellipsoid e => exact pointsE t e x y
  | plain b => rfl
  | hull k => rfl
  | aggregate a => rfl

theorem mapBase_moved (t : V3 ℝ) {f g : Base ℝ → Base ℝ} (h : ∀ b, g (movedBase t b) = movedBase t (f b)) (o : Obj ℝ) :
    (movedObj t o).mapBase g = movedObj t (o.mapBase f) := by
  cases o <;> simp [movedObj, Obj.mapBase, h, movedHull]

/-! ## the heap -/

theorem get_moved (t : V3 ℝ) (h : Heap ℝ) (p : Ptr) : (movedHeap t h)[p]? = (h[p]?).map (movedObj t) := by
  simp [movedHeap]

theorem deref_moved (t : V3 ℝ) (h : Heap ℝ) (p : Ptr) : (movedHeap t h).deref p = movedObj t <$> h.deref p := by
  unfold Heap.deref
  rw [get_moved]
  cases h[p]? <;> rfl

theorem set_moved (t : V3 ℝ) (h : Heap ℝ) (p : Ptr) (o : Obj ℝ) :
    (movedHeap t h).set p (movedObj t o) = movedHeap t (h.set p o) := by
  simp [movedHeap, List.map_set]

theorem length_moved (t : V3 ℝ) (h : Heap ℝ) : (movedHeap t h).length = h.length := by simp [movedHeap]
theorem fuel_moved (t : V3 ℝ) (h : Heap ℝ) : (movedHeap t h).fuel = h.fuel := by simp [Heap.fuel, length_moved]

/-- Every ellipsoid is upright where needed. -/
def Lev (Z : Prop) (h : Heap ℝ) : Prop := Z ∨ ∀ (p : Ptr) (e : Ellipsoid ℝ), h[p]? = some (.ellipsoid e) → ZRotated e

/-- The two heaps are the same scene, and every ellipsoid is level where needed. -/
def Seen (Z : Prop) (t : V3 ℝ) (h h' : Heap ℝ) : Prop := h' = movedHeap t h ∧ Lev Z h

theorem Lev.set {Z : Prop} {h : Heap ℝ} (l : Lev Z h) (p : Ptr) {o : Obj ℝ}
    (ho : ∀ e, o = .ellipsoid e → Z ∨ ZRotated e) : Lev Z (h.set p o) := by
  by_cases hz : Z
  · exact .inl hz
  · refine .inr fun q e hq => ?_
    rw [List.getElem?_set] at hq
    split at hq
    · split at hq
      · injection hq with hq
        exact (ho e hq).resolve_left hz
      · cases hq
    · exact l.resolve_left hz q e hq

theorem Lev.get {Z : Prop} {h : Heap ℝ} (l : Lev Z h) {p : Ptr} {e : Ellipsoid ℝ} (hp : h[p]? = some (.ellipsoid e)) :
    Z ∨ ZRotated e := l.imp id fun h => h p e hp

theorem Lev.push {Z : Prop} {h : Heap ℝ} (l : Lev Z h) {o : Obj ℝ}
    (ho : ∀ e, o = .ellipsoid e → Z ∨ ZRotated e) : Lev Z (h ++ [o]) := by
  by_cases hz : Z
  · exact .inl hz
  · refine .inr fun q e hq => ?_
    rw [List.getElem?_append] at hq
    split at hq
    · exact l.resolve_left hz q e hq
    · rw [List.getElem?_singleton] at hq
      split at hq
      · injection hq with hq
        exact (ho e hq).resolve_left hz
      · cases hq

theorem Seen.set {Z : Prop} {t : V3 ℝ} {h h' : Heap ℝ} (s : Seen Z t h h') (p : Ptr) {o : Obj ℝ}
    (ho : ∀ e, o = .ellipsoid e → Z ∨ ZRotated e) : Seen Z t (h.set p o) (h'.set p (movedObj t o)) :=
  ⟨by rw [s.1, set_moved], s.2.set p ho⟩

/-- Pointers mean the same obstacle in both. -/
theorem Seen.deref {Z : Prop} {t : V3 ℝ} {h h' : Heap ℝ} (s : Seen Z t h h') (p : Ptr) :
    Agree (fun o o' => o' = movedObj t o ∧ h[p]? = some o) (h.deref p) (h'.deref p) := by
  rw [s.1, deref_moved]
  unfold Heap.deref
  cases hp : h[p]? with
  | none => rfl
  | some o => exact ⟨rfl, rfl⟩

/-! ## setting reference positions -/

/-- Setting reference positions commutes with a change of objects that keeps the parts. -/
theorem setRefAux_mapIdx {F : Nat → Obj ℝ → Obj ℝ} {v v' : V3 ℝ}
    (hF : ∀ q o, F q (o.mapBase (·.setRef v)) = (F q o).mapBase (·.setRef v'))
    (hA : ∀ q a, ∃ a', F q (.aggregate a) = .aggregate a' ∧ a'.prims = a.prims)
    (hN : ∀ q o, (∀ a, o ≠ .aggregate a) → ∀ a, F q o ≠ .aggregate a) :
    ∀ (n : Nat) (h : Heap ℝ) (p : Ptr),
      Heap.setRefAux n (h.mapIdx F) p v' = (fun k => List.mapIdx F k) <$> Heap.setRefAux n h p v := by
  intro n
  induction n with
  | zero => intros; rfl
  | succ n ih =>
    intro h p
    unfold Heap.setRefAux
    have hd : Heap.deref (h.mapIdx F) p = F p <$> h.deref p := by
      unfold Heap.deref
      rw [List.getElem?_mapIdx]
      cases h[p]? <;> rfl
    rw [hd]
    cases hp : h.deref p with
    | throw x => rfl
    | ub u => rfl
    | ok o =>
      simp only [Res.map_ok, Res.ok_bind]
      have hs : (h.mapIdx F).set p ((F p o).mapBase (·.setRef v')) = (h.set p (o.mapBase (·.setRef v))).mapIdx F := by
        rw [← hF]
        apply List.ext_getElem?
        intro i
        simp only [List.getElem?_set, List.getElem?_mapIdx, List.length_mapIdx]
        split
        · rename_i hi; subst hi
          split <;> rfl
        · rfl
      rw [hs]
      have loop : ∀ (l : List Ptr) (k : Heap ℝ), l.foldlM (fun h q => Heap.setRefAux n h q v') (k.mapIdx F) =
          (fun k => List.mapIdx F k) <$> l.foldlM (fun h q => Heap.setRefAux n h q v) k := by
        intro l
        induction l with
        | nil => intro k; rfl
        | cons q l ihl =>
          intro k
          simp only [List.foldlM_cons]
          rw [ih]
          cases Heap.setRefAux n k q v with
          | ok k' => exact ihl k'
          | throw x => rfl
          | ub u => rfl
      cases o with
      | aggregate a =>
        obtain ⟨a', h1, h2⟩ := hA p a
        rw [h1]
        simp only [h2]
        exact loop a.prims _
      | plain b =>
        have := hN p (.plain b) (by intro a; simp)
        cases hf : F p (.plain b) with
        | aggregate a => exact absurd hf (this a)
        | _ => rfl
      | ellipsoid b =>
        have := hN p (.ellipsoid b) (by intro a; simp)
        cases hf : F p (.ellipsoid b) with
        | aggregate a => exact absurd hf (this a)
        | _ => rfl
      | hull b =>
        have := hN p (.hull b) (by intro a; simp)
        cases hf : F p (.hull b) with
        | aggregate a => exact absurd hf (this a)
        | _ => rfl

theorem setRefAux_moved (t : V3 ℝ) (n : Nat) (h : Heap ℝ) (p : Ptr) (v : V3 ℝ) :
    Heap.setRefAux n (movedHeap t h) p (v + t) = movedHeap t <$> Heap.setRefAux n h p v := by
  have e : ∀ k : Heap ℝ, movedHeap t k = k.mapIdx (fun _ => movedObj t) := by
    intro k; apply List.ext_getElem?; intro i; simp [movedHeap]
  have := setRefAux_mapIdx (F := fun _ => movedObj t) (v := v) (v' := v + t)
    (fun _ o => (mapBase_moved t (fun b => setRef_moved t b v) o).symm)
    (fun _ a => ⟨_, rfl, rfl⟩) (fun _ o ho a => by cases o <;> simp_all [movedObj]) n h p
  rw [e, this]
  congr 1
  funext k
  exact (e k).symm

theorem Lev.setRefAux {Z : Prop} {v : V3 ℝ} : ∀ (n : Nat) {h k : Heap ℝ} {p : Ptr}, Lev Z h →
    Heap.setRefAux n h p v = .ok k → Lev Z k := by
  intro n
  induction n with
  | zero => intro h k p _ hk; cases hk
  | succ n ih =>
    intro h k p l hk
    unfold Heap.setRefAux at hk
    obtain ⟨o, ho, hk⟩ := Res.bind_eq_ok.mp hk
    have hp : h[p]? = some o := by
      unfold Heap.deref at ho
      split at ho
      · injection ho with ho; rw [← ho]; assumption
      · cases ho
    have l1 : Lev Z (h.set p (o.mapBase (·.setRef v))) := by
      refine l.set p fun e he => ?_
      cases o with
      | ellipsoid e' =>
        simp only [Obj.mapBase] at he
        injection he with he
        subst he
        exact (l.get hp).imp id fun z => ⟨z.1, z.2⟩
      | _ => simp [Obj.mapBase] at he
    have loop : ∀ (ps : List Ptr) {k0 k : Heap ℝ}, Lev Z k0 → ps.foldlM (fun h q => Heap.setRefAux n h q v) k0 = .ok k →
        Lev Z k := by
      intro ps
      induction ps with
      | nil => intro k0 k l hk; cases hk; exact l
      | cons q ps ihl =>
        intro k0 k l hk
        rw [List.foldlM_cons] at hk
        obtain ⟨k1, h1, h2⟩ := Res.bind_eq_ok.mp hk
        exact ihl (ih l h1) h2
    cases o with
    | aggregate a => exact loop _ l1 hk
    | plain b => cases hk; exact l1
    | ellipsoid b => cases hk; exact l1
    | hull b => cases hk; exact l1

theorem agree_map {β γ : Type} {f : β → γ} {R : β → γ → Prop} {x : Res β} {y : Res γ} (h : y = f <$> x)
    (hR : ∀ b, x = .ok b → R b (f b)) : Agree R x y := by
  subst h
  cases x with
  | ok b => exact hR b rfl
  | throw e => rfl
  | ub u => rfl

theorem Seen.setRef {Z : Prop} {t : V3 ℝ} {h h' : Heap ℝ} (s : Seen Z t h h') (p : Ptr) (v : V3 ℝ) :
    Agree (Seen Z t) (h.setRef p v) (h'.setRef p (v + t)) := by
  refine agree_map (f := movedHeap t) ?_ fun k hk => ⟨rfl, Lev.setRefAux _ s.2 hk⟩
  rw [s.1]
  unfold Heap.setRef
  rw [fuel_moved, setRefAux_moved]

/-! ## hulls -/

theorem index_map {β γ : Type} (f : β → γ) (l : List β) (i : Nat) : Res.index (l.map f) i = f <$> Res.index l i := by
  unfold Res.index
  rw [List.getElem?_map]
  cases l[i]? <;> rfl

theorem closest_moved (t : V3 ℝ) (k : Hull ℝ) (x : V3 ℝ) : (movedHull t k).closest (x + t) = k.closest x := by
  simp only [Hull.closest, movedHull, inv_moved]

theorem hullNormal_moved (t : V3 ℝ) (k : Hull ℝ) (x : V3 ℝ) : (movedHull t k).normalToAgent (x + t) = k.normalToAgent x := by
  simp only [Hull.normalToAgent, closest_moved]
  simp only [movedHull, index_map]
  cases k.closest x with
  | throw x => rfl
  | ub u => rfl
  | ok r =>
    simp only [Res.ok_bind]
    cases Res.index k.cart r.2.1 with
    | throw x => rfl
    | ub u => rfl
    | ok s1 =>
      cases Res.index k.cart r.2.2 with
      | throw x => rfl
      | ub u => rfl
      | ok s2 => simp only [Res.map_ok, Res.ok_bind, sub_moved]

theorem hullDistance_moved (t : V3 ℝ) (k : Hull ℝ) (x m : V3 ℝ) :
    (movedHull t k).distanceToPoint (x + t) m = k.distanceToPoint x m := by
  simp only [Hull.distanceToPoint, closest_moved]
  rfl

theorem hullInside_moved (t : V3 ℝ) (k : Hull ℝ) (x : V3 ℝ) : (movedHull t k).pointIsInside (x + t) = k.pointIsInside x := by
  simp only [Hull.pointIsInside, closest_moved]
  rfl

theorem ray_moved (t : V3 ℝ) (b : Base ℝ) (ref : V3 ℝ) (os : List (Obj ℝ)) (phi : ℝ) :
    Hull.rayPoints (movedBase t b).pose (ref + t) ((os.map (movedObj t)).map Obj.intersectionPoints) phi =
      Hull.rayPoints b.pose ref (os.map Obj.intersectionPoints) phi := by
  unfold Hull.rayPoints
  simp only [List.flatMap_map]
  congr 1
  funext o
  rw [apply_moved, points_moved]
  cases h : (o.intersectionPoints ref (b.pose.apply (MathTools.polarToCartesian ⟨1, CMath.acos 0, phi⟩))).1
  · simp [h]
  · simp only [if_true, inv_moved]

theorem compute_moved (t : V3 ℝ) (k : Hull ℝ) (os : List (Obj ℝ)) (ref : V3 ℝ) :
    (movedHull t k).compute ((os.map (movedObj t)).map Obj.intersectionPoints) (ref + t) =
      movedHull t <$> k.compute (os.map Obj.intersectionPoints) ref := by
  unfold Hull.compute
  have hb : ((movedHull t k).base.setRef (ref + t)).setPosition (ref + t) = movedBase t ((k.base.setRef ref).setPosition ref) := rfl
  simp only [hb, ray_moved, apply_moved]
  simp only [movedHull]
  simp only [show (movedBase t ((k.base.setRef ref).setPosition ref)).margin = ((k.base.setRef ref).setPosition ref).margin from rfl]
  generalize (k.base.setRef ref).setPosition ref = b
  cases MathTools.linspace (-CMath.pi : ℝ) (CMath.pi - lit 1 10000) (k.resolution : Int) with
  | throw x => rfl
  | ub u => rfl
  | ok phi =>
    simp only [Res.ok_bind]
    cases Hull.computeLoop 0 (phi.map fun p => Hull.surfacePoint k.isInside k.minRadius b.margin.x p
        (Hull.rayPoints b.pose ref (os.map Obj.intersectionPoints) p)) k.polar with
    | throw x => rfl
    | ub u => rfl
    | ok p1 =>
      simp only [Res.ok_bind]
      cases Hull.smoothCol p1 0 (k.resolution - 1) 1 with
      | throw x => rfl
      | ub u => rfl
      | ok p2 =>
        simp only [Res.ok_bind]
        cases Hull.smoothCol p2 (k.resolution - 1) (k.resolution - 2) 0 with
        | throw x => rfl
        | ub u => rfl
        | ok p3 => simp only [Res.ok_bind, Res.map_ok, movedHull, List.map_map, Function.comp_def]

/-- What is computed does not depend on the place of the hull before. -/
theorem compute_half (t : V3 ℝ) (k : Hull ℝ) (os : List (Oracle ℝ)) (ref : V3 ℝ) :
    (movedHull t k).compute os ref = k.compute os ref := rfl

theorem mapM_deref_moved (t : V3 ℝ) (h : Heap ℝ) (ps : List Ptr) :
    ps.mapM (movedHeap t h).deref = (fun os => os.map (movedObj t)) <$> ps.mapM h.deref := by
  induction ps with
  | nil => rfl
  | cons p ps ih =>
    simp only [List.mapM_cons, deref_moved, ih]
    cases h.deref p with
    | throw x => rfl
    | ub u => rfl
    | ok o =>
      cases ps.mapM h.deref with
      | throw x => rfl
      | ub u => rfl
      | ok os => rfl

theorem updateHull_moved (t : V3 ℝ) (h : Heap ℝ) (p : Ptr) : (movedHeap t h).updateHull p = movedHeap t <$> h.updateHull p := by
  unfold Heap.updateHull
  rw [deref_moved]
  cases h.deref p with
  | throw x => rfl
  | ub u => rfl
  | ok o =>
    simp only [Res.map_ok, Res.ok_bind]
    cases o with
    | plain b => rfl
    | ellipsoid b => rfl
    | hull b => rfl
    | aggregate a =>
      simp only [movedObj, mapM_deref_moved, ref_moved]
      cases a.prims.mapM h.deref with
      | throw x => rfl
      | ub u => rfl
      | ok os =>
        simp only [Res.map_ok, Res.ok_bind]
        cases a.base.ref with
        | throw x => rfl
        | ub u => rfl
        | ok r =>
          simp only [Res.map_ok, Res.ok_bind, compute_moved]
          cases a.inside.compute (os.map Obj.intersectionPoints) r with
          | throw x => rfl
          | ub u => rfl
          | ok i =>
            simp only [Res.map_ok, Res.ok_bind]
            cases a.outside.compute (os.map Obj.intersectionPoints) r with
            | throw x => rfl
            | ub u => rfl
            | ok j =>
              simp only [Res.map_ok, Res.ok_bind]
              rw [← set_moved]
              rfl

theorem get_of_deref {h : Heap ℝ} {p : Ptr} {o : Obj ℝ} (ho : h.deref p = .ok o) : h[p]? = some o := by
  unfold Heap.deref at ho
  split at ho
  · injection ho with ho; rw [← ho]; assumption
  · cases ho

theorem Lev.updateHull {Z : Prop} {h k : Heap ℝ} {p : Ptr} (l : Lev Z h) (hk : h.updateHull p = .ok k) :
    Lev Z k := by
  unfold Heap.updateHull at hk
  obtain ⟨o, ho, hk⟩ := Res.bind_eq_ok.mp hk
  cases o with
  | plain b => cases hk
  | ellipsoid b => cases hk
  | hull b => cases hk
  | aggregate a =>
    simp only at hk
    obtain ⟨_, _, hk⟩ := Res.bind_eq_ok.mp hk
    obtain ⟨_, _, hk⟩ := Res.bind_eq_ok.mp hk
    obtain ⟨_, _, hk⟩ := Res.bind_eq_ok.mp hk
    obtain ⟨_, _, hk⟩ := Res.bind_eq_ok.mp hk
    cases hk
    exact l.set p (fun e he => by cases he)

theorem Seen.updateHull {Z : Prop} {t : V3 ℝ} {h h' : Heap ℝ} (s : Seen Z t h h') (p : Ptr) :
    Agree (Seen Z t) (h.updateHull p) (h'.updateHull p) :=
  agree_map (f := movedHeap t) (by rw [s.1, updateHull_moved]) fun _ hk => ⟨rfl, s.2.updateHull hk⟩

/-! ## building aggregates -/

theorem sortByName_moved (t : V3 ℝ) (h : Heap ℝ) (ps : List Ptr) :
    (movedHeap t h).sortByName ps = (fun l => l.map (fun x => (x.1, movedObj t x.2))) <$> h.sortByName ps := by
  have key : ∀ ps : List Ptr, (ps.mapM fun p => do
        let o ← (movedHeap t h).deref p
        Res.ok (p, o)) = (fun l : List (Ptr × Obj ℝ) => l.map (fun x => (x.1, movedObj t x.2))) <$> (ps.mapM fun p => do
        let o ← h.deref p
        Res.ok (p, o)) := by
    intro ps
    induction ps with
    | nil => rfl
    | cons p ps ih =>
      rw [List.mapM_cons, List.mapM_cons, ih, deref_moved]
      cases h.deref p with
      | throw x => rfl
      | ub u => rfl
      | ok o =>
        simp only [Res.map_ok, Res.ok_bind]
        generalize (List.mapM (fun p => do
          let o ← h.deref p
          Res.ok (p, o)) ps : Res (List (Ptr × Obj ℝ))) = r
        cases r <;> rfl
  unfold Heap.sortByName
  rw [key]
  cases (ps.mapM fun p => do
        let o ← h.deref p
        Res.ok (p, o) : Res (List (Ptr × Obj ℝ))) with
  | throw x => rfl
  | ub u => rfl
  | ok l =>
    simp only [Res.map_ok, Res.ok_bind]
    congr 1
    exact MathTools.sortBy_map _ _ _ (fun a b => by simp only [Heap.namedBefore, name_moved]) l

theorem sortByName_length {h : Heap ℝ} {ps : List Ptr} {l : List (Ptr × Obj ℝ)} (hl : h.sortByName ps = .ok l) :
    l.length = ps.length := by
  unfold Heap.sortByName at hl
  obtain ⟨os, h1, h2⟩ := Res.bind_eq_ok.mp hl
  cases h2
  rw [MathTools.length_sortBy]
  have : ∀ (ps : List Ptr) (os : List (Ptr × Obj ℝ)), (ps.mapM fun p => do
        let o ← h.deref p
        Res.ok (p, o)) = .ok os → os.length = ps.length := by
    intro ps
    induction ps with
    | nil => intro os h; cases h; rfl
    | cons p ps ih =>
      intro os h
      rw [List.mapM_cons] at h
      obtain ⟨b, hb, h⟩ := Res.bind_eq_ok.mp h
      obtain ⟨bs, hbs, h⟩ := Res.bind_eq_ok.mp h
      cases h
      simp [ih bs hbs]
  exact this ps os h1

theorem sum_moved (t : V3 ℝ) (l : List (V3 ℝ)) : ∀ acc s : V3 ℝ, (l.map (· + t)).foldl (fun acc v => acc + v) (acc + s) =
    (l.foldl (fun acc v => acc + v) acc) + (s + V3.smul (l.length : ℝ) t) := by
  induction l with
  | nil => intro acc s; simp only [List.map_nil, List.foldl_nil, List.length_nil]; ext <;> simp [V3.smul]
  | cons v l ih =>
    intro acc s
    simp only [List.map_cons, List.foldl_cons]
    rw [show acc + s + (v + t) = (acc + v) + (s + t) by v3_ring, ih]
    ext <;> simp [V3.smul] <;> ring

theorem mean_moved (t : V3 ℝ) (l : List (V3 ℝ)) (hl : l ≠ []) :
    ((l.map (· + t)).foldl (fun acc v => acc + v) V3.zero).sdiv (MathTools.ofInt l.length) =
      (l.foldl (fun acc v => acc + v) V3.zero).sdiv (MathTools.ofInt l.length) + t := by
  have h := sum_moved t l V3.zero V3.zero
  rw [show (V3.zero : V3 ℝ) + V3.zero = V3.zero by v3_ring] at h
  rw [h]
  have hn : (l.length : ℝ) ≠ 0 := by
    have := List.length_pos_iff.mpr hl
    positivity
  generalize l.foldl (fun acc v => acc + v) V3.zero = s
  ext <;> simp [V3.sdiv, V3.smul, V3.zero, MathTools.ofInt, lit_real] <;> field_simp

theorem installPrims_moved {Z : Prop} {t : V3 ℝ} {h h' : Heap ℝ} (s : Seen Z t h h') (p : Ptr) {ps : List Ptr} (hps : ps ≠ []) (u : Bool) :
    Agree (Seen Z t) (h.installPrims p ps u) (h'.installPrims p ps u) := by
  unfold Heap.installPrims
  refine Agree.bind (s.deref p) ?_
  rintro o o' _ - ⟨rfl, ho⟩
  cases o with
  | plain b => rfl
  | ellipsoid b => rfl
  | hull b => rfl
  | aggregate a =>
    simp only [movedObj]
    rw [s.1, sortByName_moved]
    cases hs : h.sortByName ps with
    | throw x => rfl
    | ub u => rfl
    | ok l =>
      have hl : l ≠ [] := by
        have := sortByName_length hs
        intro h0
        rw [h0] at this
        exact hps (List.length_eq_zero_iff.mp this.symm)
      simp only [Res.map_ok, Res.ok_bind, List.map_map, List.length_map]
      have e1 : ((fun x : Ptr × Obj ℝ => x.2.position) ∘ fun x => (x.1, movedObj t x.2)) =
          ((· + t) ∘ fun x : Ptr × Obj ℝ => x.2.position) := by
        funext x; exact objPosition_moved t x.2
      have e2 : ((fun x : Ptr × Obj ℝ => x.2.name) ∘ fun x => (x.1, movedObj t x.2)) = fun x : Ptr × Obj ℝ => x.2.name := by
        funext x; exact name_moved t x.2
      have e3 : ((fun x : Ptr × Obj ℝ => x.1) ∘ fun x => (x.1, movedObj t x.2)) = fun x : Ptr × Obj ℝ => x.1 := rfl
      rw [e1, e2, e3, ← List.map_map]
      have hm := mean_moved t (l.map fun x => x.2.position) (by simpa using hl)
      rw [List.length_map] at hm
      rw [hm]
      generalize (l.map fun x => x.2.position).foldl (fun acc v => acc + v) V3.zero = sm
      have s1 := (show Seen Z t h (movedHeap t h) from ⟨rfl, s.2⟩).set p
        (o := .aggregate ⟨(a.base.setName (Heap.aggregateName (l.map fun x => x.2.name))).setPosition
          (sm.sdiv (MathTools.ofInt l.length)), a.inside, a.outside, l.map fun x => x.1⟩) (fun e he => by cases he)
      refine Agree.bind (R := Seen Z t) (s1.setRef p _) ?_
      intro k k' _ _ sk
      cases u with
      | false => exact sk
      | true => exact sk.updateHull p

theorem addPrimitive_moved {Z : Prop} {t : V3 ℝ} {h h' : Heap ℝ} (s : Seen Z t h h') (p q : Ptr) (u : Bool) :
    Agree (Seen Z t) (h.addPrimitive p q u) (h'.addPrimitive p q u) := by
  unfold Heap.addPrimitive
  refine Agree.bind (s.deref p) ?_
  rintro o o' _ - ⟨rfl, ho⟩
  cases o with
  | plain b => rfl
  | ellipsoid b => rfl
  | hull b => rfl
  | aggregate a => exact installPrims_moved s p (by simp) u

end Origin
end DOA
