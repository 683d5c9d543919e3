import Verif.Model.Print
import Verif.Spec.Print
import Verif.Lemmas.Heap
import Verif.Lemmas.Combine

/-!
# Reading a text back
-/

namespace DOA.Print

open DOA.Spec DOA.Modulation

set_option linter.unusedSectionVars false
set_option linter.unusedSimpArgs false

section
variable {α : Type} [Add α] [Sub α] [Mul α] [Div α] [Neg α] [Zero α] [One α]
  [LE α] [LT α] [DecidableLE α] [DecidableLT α] [CMath α]

theorem num_inj {a a' : α} {l l' : Text α} : num a ++ l = num a' ++ l' ↔ a = a' ∧ l = l' := by
  simp [num]

theorem triple_inj {v v' : V3 α} {l l' : Text α} : triple v ++ l = triple v' ++ l' ↔ v = v' ∧ l = l' := by
  simp only [triple, List.append_assoc, List.append_cancel_left_eq, num_inj, V3.ext_iff]
  tauto

theorem row_inj {v v' : V3 α} {l l' : Text α} : row v ++ l = row v' ++ l' ↔ v = v' ∧ l = l' := by
  simp only [row, List.append_assoc, List.append_cancel_left_eq, num_inj, V3.ext_iff]
  tauto

theorem pose_inj {p p' : Pose α} {l l' : Text α} : pose p ++ l = pose p' ++ l' ↔ p = p' ∧ l = l' := by
  constructor
  · intro h
    simp only [pose, List.append_assoc, List.append_cancel_left_eq, num_inj, triple_inj] at h
    obtain ⟨h1, h2, h3, h4, h5, -, -, h6⟩ := h
    refine ⟨?_, h6⟩
    obtain ⟨x, q⟩ := p
    obtain ⟨x', q'⟩ := p'
    have : q = q' := by ext <;> assumption
    rw [this, show x = x' from h1]
  · rintro ⟨rfl, rfl⟩; rfl

theorem state_inj {s s' : State α} {l l' : Text α} : state s ++ l = state s' ++ l' ↔ s = s' ∧ l = l' := by
  constructor
  · intro h
    simp only [state, List.append_assoc, List.append_cancel_left_eq, pose_inj, triple_inj] at h
    obtain ⟨h1, h2, h3, h4⟩ := h
    refine ⟨?_, h4⟩
    obtain ⟨p, v, w⟩ := s
    obtain ⟨p', v', w'⟩ := s'
    simp only at h1 h2 h3
    rw [h1, h2, h3]
  · rintro ⟨rfl, rfl⟩; rfl

/-- A name without line break ends at the first line break. -/
theorem name_inj {s s' : String} (hs : '\n' ∉ s.toList) (hs' : '\n' ∉ s'.toList) {l l' : Text α} :
    str s ++ (endl ++ l) = str s' ++ (endl ++ l') ↔ s = s' ∧ l = l' := by
  have key : ∀ c c' : List Char, '\n' ∉ c → '\n' ∉ c' →
      (c.map Sym.chr : Text α) ++ (endl ++ l) = c'.map .chr ++ (endl ++ l') → c = c' ∧ l = l' := by
    intro c
    induction c with
    | nil =>
      intro c' _ h' h
      cases c' with
      | nil => exact ⟨rfl, by simpa [endl] using h⟩
      | cons x xs =>
        exfalso
        simp only [List.map_nil, List.nil_append, endl, List.map_cons, List.cons_append, List.cons.injEq, Sym.chr.injEq] at h
        exact h' (by rw [← h.1]; simp)
    | cons x xs ih =>
      intro c' hc h' h
      cases c' with
      | nil =>
        exfalso
        simp only [List.map_nil, List.nil_append, endl, List.map_cons, List.cons_append, List.cons.injEq, Sym.chr.injEq] at h
        exact hc (by rw [h.1]; simp)
      | cons y ys =>
        simp only [List.map_cons, List.cons_append, List.cons.injEq, Sym.chr.injEq] at h
        obtain ⟨h1, h2⟩ := ih ys (fun hh => hc (by simp [hh])) (fun hh => h' (by simp [hh])) h.2
        exact ⟨by rw [h.1, h1], h2⟩
  constructor
  · intro h
    obtain ⟨h1, h2⟩ := key _ _ hs hs' h
    exact ⟨String.toList_inj.mp h1, h2⟩
  · rintro ⟨rfl, rfl⟩; rfl

/-- The text of `base`, given the reference position. -/
theorem base_ok {T : String} {b : Base α} {t : Text α} : base T b = .ok t ↔ ∃ r, b.refPos = some r ∧
    t = str T ++ (str " " ++ (str b.name ++ (endl ++ (state b.state ++ (endl ++ (str "reference position: " ++ (triple r
      ++ (endl ++ (str "safety margin: " ++ row b.margin))))))))) := by
  simp only [base, Base.ref]
  cases hb : b.refPos with
  | none => simp
  | some r => simp [eq_comm]

theorem base_inj {T : String} {b b' : Base α} (hs : '\n' ∉ b.name.toList) (hs' : '\n' ∉ b'.name.toList)
    {t t' l l' : Text α} (ht : base T b = .ok t) (ht' : base T b' = .ok t') (h : t ++ l = t' ++ l') : b = b' ∧ l = l' := by
  obtain ⟨r, hr, rfl⟩ := base_ok.mp ht
  obtain ⟨r', hr', rfl⟩ := base_ok.mp ht'
  simp only [List.append_assoc, List.append_cancel_left_eq, name_inj (α := α) hs hs', state_inj, triple_inj, row_inj] at h
  obtain ⟨h1, h2, h3, h4, h5⟩ := h
  refine ⟨?_, h5⟩
  obtain ⟨n, s, rp, m⟩ := b
  obtain ⟨n', s', rp', m'⟩ := b'
  simp only at h1 h2 h4 hr hr'
  rw [h1, h2, h4, hr, hr', h3]

/-- The character that tells the kinds apart. -/
def lead : Obj α → Char
  | .plain _ => ' '
  | .ellipsoid _ => 'E'
  | .hull _ => 'S'
  | .aggregate _ => 'A'

theorem base_head {T : String} {b : Base α} {t l : Text α} (ht : base T b = .ok t) :
    (t ++ l).head? = (T.toList ++ [' ']).head?.map .chr := by
  obtain ⟨r, -, rfl⟩ := base_ok.mp ht
  simp only [str]
  cases T.toList with
  | nil => simp
  | cons c cs => simp

/-- The texts of the primitives of an aggregate. -/
def prims (fuel : Nat) (h : Heap α) (ps : List Ptr) : Res (List (Text α)) :=
  ps.mapM (fun p => do
    let q ← h.deref p
    let t ← objAux fuel h q
    .ok (str "---" ++ endl ++ t ++ endl))

theorem aggregate_ok {fuel : Nat} {h : Heap α} {a : Aggregate α} {t : Text α} :
    objAux (fuel + 1) h (.aggregate a) = .ok t ↔ ∃ b ps, base "Aggregate" a.base = .ok b ∧ prims fuel h a.prims = .ok ps ∧
      t = b ++ (endl ++ (str "Composed of:" ++ (endl ++ ps.flatten))) := by
  rw [objAux]
  constructor
  · intro h0
    obtain ⟨b, hb, h1⟩ := Res.bind_eq_ok.mp h0
    obtain ⟨ps, hps, h2⟩ := Res.bind_eq_ok.mp h1
    refine ⟨b, ps, hb, hps, ?_⟩
    have := Res.ok.inj h2
    rw [← this]
    simp only [List.append_assoc]
  · rintro ⟨b, ps, hb, hps, rfl⟩
    rw [hb]
    simp only [Res.ok_bind]
    rw [prims] at hps
    rw [hps]
    simp only [Res.ok_bind, List.append_assoc]

theorem prims_nil {fuel : Nat} {h : Heap α} {l : List (Text α)} : prims fuel h [] = .ok l ↔ l = [] := by
  simp only [prims, List.mapM_nil]
  exact ⟨fun h => (Res.ok.inj h).symm, fun h => by rw [h]; rfl⟩

theorem prims_cons {fuel : Nat} {h : Heap α} {p : Ptr} {ps : List Ptr} {l : List (Text α)} :
    prims fuel h (p :: ps) = .ok l ↔ ∃ o t ls, h[p]? = some o ∧ objAux fuel h o = .ok t ∧ prims fuel h ps = .ok ls ∧
      l = (str "---" ++ endl ++ t ++ endl) :: ls := by
  constructor
  · intro h0
    have h1 := (mapM_ok _ _ _).mp h0
    cases h1 with
    | cons hx hxs =>
      obtain ⟨o, ho, h2⟩ := Res.bind_eq_ok.mp hx
      obtain ⟨t, ht, h3⟩ := Res.bind_eq_ok.mp h2
      refine ⟨o, t, _, ?_, ht, (mapM_ok _ _ _).mpr hxs, by rw [← Res.ok.inj h3]⟩
      unfold Heap.deref at ho
      split at ho
      · rename_i o' ho'
        rw [ho', ← Res.ok.inj ho]
      · simp at ho
  · rintro ⟨o, t, ls, ho, ht, hls, rfl⟩
    refine (mapM_ok _ _ _).mpr (List.Forall₂.cons ?_ ((mapM_ok _ _ _).mp hls))
    simp only [Heap.deref, ho, Res.ok_bind, ht]

theorem head_obj {fuel : Nat} {h : Heap α} {o : Obj α} {t l : Text α} (ht : objAux fuel h o = .ok t) :
    (t ++ l).head? = some (.chr (lead o)) := by
  cases fuel with
  | zero => simp [objAux] at ht
  | succ fuel =>
    cases o with
    | plain b => rw [objAux] at ht; rw [base_head ht]; rfl
    | hull k => rw [objAux] at ht; rw [base_head ht]; rfl
    | ellipsoid e =>
      rw [objAux, ellipsoid] at ht
      obtain ⟨b, hb, h1⟩ := Res.bind_eq_ok.mp ht
      rw [← Res.ok.inj h1]
      simp only [List.append_assoc]
      rw [base_head hb]; rfl
    | aggregate a =>
      obtain ⟨b, ps, hb, -, rfl⟩ := aggregate_ok.mp ht
      simp only [List.append_assoc]
      rw [base_head hb]; rfl

/-- The text does not continue with a dash. -/
def NoDash (l : Text α) : Prop := l.head? ≠ some (.chr '-')

theorem dashes {t l : Text α} : (str "---" ++ endl ++ t ++ endl ++ l).head? = some (.chr '-') := rfl

/-- Texts are prefix-free: what follows the text of an object can be told from the text, if it does not begin with a
dash. -/
theorem read_back {h h' : Heap α} (hn : ∀ (p : Ptr) o, h[p]? = some o → OneLine o)
    (hn' : ∀ (p : Ptr) o, h'[p]? = some o → OneLine o) : ∀ (fuel fuel' : Nat) (o o' : Obj α) (t t' l l' : Text α),
    OneLine o → OneLine o' → objAux fuel h o = .ok t → objAux fuel' h' o' = .ok t' → NoDash l → NoDash l' →
    t ++ l = t' ++ l' → Same h h' o o' ∧ l = l' := by
  intro fuel
  induction fuel with
  | zero => intro fuel' o o' t t' l l' _ _ ht; simp [objAux] at ht
  | succ fuel ih =>
    intro fuel' o o' t t' l l' ho ho' ht ht' hl hl' he
    have hlead : lead o = lead o' := by
      have h1 := head_obj (l := l) ht
      have h2 := head_obj (l := l') ht'
      rw [he, h2] at h1
      simpa using h1.symm
    cases fuel' with
    | zero => simp [objAux] at ht'
    | succ fuel' =>
      cases o with
      | plain b =>
        cases o' with
        | plain b' =>
          obtain ⟨h1, h2⟩ := base_inj ho ho' ht ht' he
          rw [show b = b' from h1]
          exact ⟨.plain b', h2⟩
        | ellipsoid e => exact absurd hlead (by simp [lead])
        | hull e => exact absurd hlead (by simp [lead])
        | aggregate e => exact absurd hlead (by simp [lead])
      | hull k =>
        cases o' with
        | hull k' =>
          obtain ⟨h1, h2⟩ := base_inj ho ho' ht ht' he
          exact ⟨.hull k k' h1, h2⟩
        | ellipsoid e => exact absurd hlead (by simp [lead])
        | plain e => exact absurd hlead (by simp [lead])
        | aggregate e => exact absurd hlead (by simp [lead])
      | ellipsoid e =>
        cases o' with
        | ellipsoid e' =>
          rw [objAux, ellipsoid] at ht ht'
          obtain ⟨b, hb, h1⟩ := Res.bind_eq_ok.mp ht
          obtain ⟨b', hb', h1'⟩ := Res.bind_eq_ok.mp ht'
          rw [← Res.ok.inj h1, ← Res.ok.inj h1'] at he
          simp only [List.append_assoc] at he
          obtain ⟨h2, h3⟩ := base_inj ho ho' hb hb' he
          simp only [List.append_cancel_left_eq, triple_inj] at h3
          obtain ⟨h4, h5, h6⟩ := h3
          refine ⟨?_, h6⟩
          obtain ⟨b0, x, c⟩ := e
          obtain ⟨b0', x', c'⟩ := e'
          simp only at h4 h5
          rw [show b0 = b0' from h2, h4, h5]
          exact .ellipsoid _
        | hull e => exact absurd hlead (by simp [lead])
        | plain e => exact absurd hlead (by simp [lead])
        | aggregate e => exact absurd hlead (by simp [lead])
      | aggregate a =>
        cases o' with
        | aggregate a' =>
          obtain ⟨b, ps, hb, hps, rfl⟩ := aggregate_ok.mp ht
          obtain ⟨b', ps', hb', hps', rfl⟩ := aggregate_ok.mp ht'
          simp only [List.append_assoc] at he
          obtain ⟨h2, h3⟩ := base_inj ho ho' hb hb' he
          simp only [List.append_cancel_left_eq] at h3
          have key : ∀ (qs qs' : List Ptr) (ps ps' : List (Text α)), prims fuel h qs = .ok ps → prims fuel' h' qs' = .ok ps' →
              ps.flatten ++ l = ps'.flatten ++ l' → SameAll h h' qs qs' ∧ l = l' := by
            intro qs
            induction qs with
            | nil =>
              intro qs' ps ps' hps hps' h3
              rw [prims_nil] at hps
              subst hps
              cases qs' with
              | nil =>
                rw [prims_nil] at hps'
                subst hps'
                exact ⟨.nil, by simpa using h3⟩
              | cons q' qs' =>
                obtain ⟨o', t', ls', -, -, -, rfl⟩ := prims_cons.mp hps'
                refine absurd ?_ hl
                rw [show l = (str "---" ++ endl ++ t' ++ endl) ++ (ls'.flatten ++ l') by simpa using h3]
                exact dashes
            | cons q qs ihq =>
              intro qs' ps ps' hps hps' h3
              obtain ⟨o, t, ls, hq, ht, hls, rfl⟩ := prims_cons.mp hps
              cases qs' with
              | nil =>
                rw [prims_nil] at hps'
                subst hps'
                refine absurd ?_ hl'
                rw [show l' = (str "---" ++ endl ++ t ++ endl) ++ (ls.flatten ++ l) by simpa using h3.symm]
                exact dashes
              | cons q' qs' =>
                obtain ⟨o', t', ls', hq', ht', hls', rfl⟩ := prims_cons.mp hps'
                simp only [List.flatten_cons, List.append_assoc, List.append_cancel_left_eq] at h3
                obtain ⟨h4, h5⟩ := ih fuel' o o' t t' _ _ (hn q o hq) (hn' q' o' hq') ht ht' (by simp [NoDash, endl])
                  (by simp [NoDash, endl]) h3
                simp only [List.append_cancel_left_eq] at h5
                obtain ⟨h6, h7⟩ := ihq qs' ls ls' hls hls' h5
                exact ⟨.cons q q' qs qs' o o' hq hq' h4 h6, h7⟩
          obtain ⟨h4, h5⟩ := key _ _ _ _ hps hps' h3
          exact ⟨.aggregate a a' h2 h4, h5⟩
        | hull e => exact absurd hlead (by simp [lead])
        | plain e => exact absurd hlead (by simp [lead])
        | ellipsoid e => exact absurd hlead (by simp [lead])

/-- More recursion depth does not change a text. -/
theorem objAux_mono {h : Heap α} : ∀ (fuel fuel' : Nat), fuel ≤ fuel' → ∀ (o : Obj α) (t : Text α),
    objAux fuel h o = .ok t → objAux fuel' h o = .ok t := by
  intro fuel
  induction fuel with
  | zero => intro fuel' _ o t ht; simp [objAux] at ht
  | succ fuel ih =>
    intro fuel' hle o t ht
    cases fuel' with
    | zero => omega
    | succ fuel' =>
      cases o with
      | plain b => exact ht
      | ellipsoid e => exact ht
      | hull k => exact ht
      | aggregate a =>
        obtain ⟨b, ps, hb, hps, rfl⟩ := aggregate_ok.mp ht
        refine aggregate_ok.mpr ⟨b, ps, hb, ?_, rfl⟩
        clear ht
        generalize a.prims = qs at hps
        induction qs generalizing ps with
        | nil => exact prims_nil.mpr (prims_nil.mp hps)
        | cons q qs ihq =>
          obtain ⟨o, t, ls, hq, ht, hls, rfl⟩ := prims_cons.mp hps
          exact prims_cons.mpr ⟨o, t, ls, hq, ih fuel' (by omega) o t ht, ihq ls hls, rfl⟩

/-- The same values give the same text. -/
theorem objAux_same {h h' : Heap α} : ∀ (fuel : Nat) (o o' : Obj α) (t : Text α), Same h h' o o' →
    objAux fuel h o = .ok t → objAux fuel h' o' = .ok t := by
  intro fuel
  induction fuel with
  | zero => intro o o' t _ ht; simp [objAux] at ht
  | succ fuel ih =>
    intro o o' t hs ht
    cases hs with
    | plain b => exact ht
    | ellipsoid e => exact ht
    | hull k k' hk => rw [objAux] at ht ⊢; rw [← hk]; exact ht
    | aggregate a a' ha hp =>
      obtain ⟨b, ps, hb, hps, rfl⟩ := aggregate_ok.mp ht
      refine aggregate_ok.mpr ⟨b, ps, by rw [← ha]; exact hb, ?_, rfl⟩
      clear ht
      generalize a.prims = qs at hps hp
      generalize a'.prims = qs' at hp
      induction qs generalizing qs' ps with
      | nil => cases hp; exact prims_nil.mpr (prims_nil.mp hps)
      | cons q qs ihq =>
        cases hp with
        | cons _ q' _ qs' o o' hq hq' hs hss =>
          obtain ⟨o1, t, ls, hq1, ht, hls, rfl⟩ := prims_cons.mp hps
          rw [hq] at hq1
          obtain rfl := Option.some.inj hq1
          exact prims_cons.mpr ⟨o', t, ls, hq', ih o o' t hs ht, ihq ls hls qs' hss, rfl⟩

theorem base_total {T : String} {b : Base α} (hb : b.refPos ≠ none) : ∃ t, base T b = .ok t := by
  obtain ⟨r, hr⟩ := Option.ne_none_iff_exists'.mp hb
  exact ⟨_, base_ok.mpr ⟨r, hr, rfl⟩⟩

theorem objAux_total {h : Heap α} {rank : Ptr → Nat} (hr : Ranked rank h)
    (hi : ∀ (p : Ptr) o, h[p]? = some o → o.base.refPos ≠ none) : ∀ (fuel : Nat) (p : Ptr) (o : Obj α), rank p < fuel →
      h[p]? = some o → ∃ t, objAux fuel h o = .ok t := by
  intro fuel
  induction fuel with
  | zero => intro p o hp; omega
  | succ fuel ih =>
    intro p o hp ho
    have hb := hi p o ho
    cases o with
    | plain b => exact base_total hb
    | hull k => exact base_total hb
    | ellipsoid e =>
      obtain ⟨t, ht⟩ := base_total (T := "Ellipsoid") hb
      refine ⟨_, by
        rw [objAux, ellipsoid, show e.base = (Obj.ellipsoid e).base from rfl, ht]
        exact rfl⟩
    | aggregate a =>
      obtain ⟨t, ht⟩ := base_total (T := "Aggregate") hb
      obtain ⟨ps, hps⟩ : ∃ ps, prims fuel h a.prims = .ok ps := by
        have : ∀ qs : List Ptr, (∀ q ∈ qs, q ∈ a.prims) → ∃ ps, prims fuel h qs = .ok ps := by
          intro qs
          induction qs with
          | nil => intro _; exact ⟨[], prims_nil.mpr rfl⟩
          | cons q qs ihq =>
            intro hq
            obtain ⟨h1, h2⟩ := hr.child p q ⟨a, ho, hq q (by simp)⟩
            obtain ⟨t, ht⟩ := ih q h[q] (by omega) (List.getElem?_eq_getElem h1)
            obtain ⟨ps, hps⟩ := ihq (fun q hq' => hq q (by simp [hq']))
            exact ⟨_, prims_cons.mpr ⟨_, t, ps, List.getElem?_eq_getElem h1, ht, hps, rfl⟩⟩
        exact this _ (fun q hq => hq)
      exact ⟨_, aggregate_ok.mpr ⟨t, ps, ht, hps, rfl⟩⟩

end
end DOA.Print
