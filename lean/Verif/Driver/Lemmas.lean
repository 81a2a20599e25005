import Verif.Driver.Model
import Verif.Misc.LabelsProps
/-!
# Lemmas on the run of a conversion
-/
namespace Geouned.Driver
open Geouned Geouned.BB

variable {F S : Type} [Field F] [LinearOrder F] [IsStrictOrderedRing F]

omit [Field F] [LinearOrder F] [IsStrictOrderedRing F] in
theorem orLeave_ok {α : Type} {st : State F S} {x : Except Err α} {a : α} : orLeave st x = .ok a ↔ x = .ok a := by
  cases x <;> simp [orLeave]

/-! ## words in comments -/

theorem isIn_iff (w : List Char) : ∀ cs, isIn w cs = true ↔ w <:+: cs := by
  intro cs
  induction cs with
  | nil => simp [isIn]
  | cons c cs ih =>
    rw [isIn, Bool.or_eq_true, ih, List.isPrefixOf_iff_prefix, List.infix_cons_iff]

/-! ## bounding box -/

theorem boxLoop_none : ∀ (l : List (Cell F)) (b : Box F), (∃ c ∈ l, c.shape = none) → boxLoop b l = .error .attributeError := by
  intro l
  induction l with
  | nil => rintro b ⟨c, h, -⟩; cases h
  | cons m ms ih =>
    rintro b ⟨c, h, hc⟩
    rw [boxLoop]
    cases hm : m.shape with
    | none => rfl
    | some a =>
      refine ih _ ⟨c, ?_, hc⟩
      rcases List.mem_cons.1 h with rfl | h
      · rw [hc] at hm; cases hm
      · exact h

theorem geometryBox_none {pad : F} {l : List (Cell F)} (h : ∃ c ∈ l, c.shape = none) : geometryBox pad l = .error .attributeError := by
  obtain ⟨c, hc, hs⟩ := h
  cases l with
  | nil => cases hc
  | cons m ms =>
    rw [geometryBox]
    cases hm : m.shape with
    | none => rfl
    | some a =>
      dsimp only
      rw [boxLoop_none]
      · rfl
      · refine ⟨c, ?_, hs⟩
        rcases List.mem_cons.1 hc with rfl | h
        · rw [hs] at hm; cases hm
        · exact h

/-- what the loop over the boxes has found -/
structure Hull (b : Box F) (as : List (Box F)) : Prop where
  holds : ∀ a ∈ as, HoldsWith 0 b a
  xmin : ∃ a ∈ as, a.xmin = b.xmin
  xmax : ∃ a ∈ as, a.xmax = b.xmax
  ymin : ∃ a ∈ as, a.ymin = b.ymin
  ymax : ∃ a ∈ as, a.ymax = b.ymax
  zmin : ∃ a ∈ as, a.zmin = b.zmin
  zmax : ∃ a ∈ as, a.zmax = b.zmax

theorem hull_one (a : Box F) : Hull a [a] := by
  constructor <;> simp [HoldsWith]

theorem min_attained {as : List (Box F)} {a : Box F} (f : Box F → F) {m : F} (h : ∃ x ∈ as, f x = m) : ∃ x ∈ as ++ [a], f x = min (f a) m := by
  obtain ⟨x, hx, e⟩ := h
  rcases le_total (f a) m with hl | hl
  · exact ⟨a, by simp, by rw [min_eq_left hl]⟩
  · exact ⟨x, by simp [hx], by rw [min_eq_right hl, e]⟩

theorem max_attained {as : List (Box F)} {a : Box F} (f : Box F → F) {m : F} (h : ∃ x ∈ as, f x = m) : ∃ x ∈ as ++ [a], f x = max (f a) m := by
  obtain ⟨x, hx, e⟩ := h
  rcases le_total (f a) m with hl | hl
  · exact ⟨x, by simp [hx], by rw [max_eq_right hl, e]⟩
  · exact ⟨a, by simp, by rw [max_eq_left hl]⟩

theorem hull_widen {b a : Box F} {as : List (Box F)} (h : Hull b as) : Hull (widen b a) (as ++ [a]) := by
  refine ⟨fun x hx => ?_, min_attained Box.xmin h.xmin, max_attained Box.xmax h.xmax, min_attained Box.ymin h.ymin, max_attained Box.ymax h.ymax,
    min_attained Box.zmin h.zmin, max_attained Box.zmax h.zmax⟩
  rcases List.mem_append.1 hx with hx | hx
  · obtain ⟨h1, h2, h3, h4, h5, h6⟩ := h.holds x hx
    simp only [sub_zero, add_zero] at h1 h2 h3 h4 h5 h6
    simp only [HoldsWith, widen, sub_zero, add_zero]
    exact ⟨le_trans (min_le_right _ _) h1, le_trans h2 (le_max_right _ _), le_trans (min_le_right _ _) h3, le_trans h4 (le_max_right _ _),
      le_trans (min_le_right _ _) h5, le_trans h6 (le_max_right _ _)⟩
  · rw [List.mem_singleton] at hx
    subst hx
    simp [HoldsWith, widen]

theorem boxLoop_hull : ∀ (l : List (Cell F)) (b : Box F) (as : List (Box F)), Hull b as → (∀ c ∈ l, c.shape.isSome = true) →
    ∃ b', boxLoop b l = .ok b' ∧ Hull b' (as ++ l.filterMap (·.shape)) := by
  intro l
  induction l with
  | nil => intro b as h _; exact ⟨b, rfl, by simpa using h⟩
  | cons m ms ih =>
    intro b as h hs
    obtain ⟨a, ha⟩ := Option.isSome_iff_exists.1 (hs m (by simp))
    obtain ⟨b', h1, h2⟩ := ih (widen b a) (as ++ [a]) (hull_widen h) fun c hc => hs c (by simp [hc])
    refine ⟨b', ?_, ?_⟩
    · rw [boxLoop, ha]; exact h1
    · rw [List.filterMap_cons, ha]; simpa using h2

theorem geometryBox_ok {pad : F} {l : List (Cell F)} (hl : l ≠ []) (hs : ∀ c ∈ l, c.shape.isSome = true) :
    ∃ b, Hull b (l.filterMap (·.shape)) ∧
      geometryBox pad l = .ok ⟨b.xmin - pad, b.xmax + pad, b.ymin - pad, b.ymax + pad, b.zmin - pad, b.zmax + pad⟩ := by
  cases l with
  | nil => exact absurd rfl hl
  | cons m ms =>
    obtain ⟨a, ha⟩ := Option.isSome_iff_exists.1 (hs m (by simp))
    obtain ⟨b, h1, h2⟩ := boxLoop_hull ms a [a] (hull_one a) fun c hc => hs c (by simp [hc])
    refine ⟨b, by rw [List.filterMap_cons, ha]; simpa using h2, ?_⟩
    rw [geometryBox, ha]
    dsimp only
    rw [h1]
    rfl

theorem exportLoop_cases : ∀ l : List (Cell F), exportLoop l = .ok () ∨ exportLoop l = .error .typeError := by
  intro l
  induction l with
  | nil => exact .inl rfl
  | cons m ms ih =>
    rw [exportLoop]
    split
    · exact ih
    · split
      · exact .inr rfl
      · exact ih

theorem exportLoop_ok : ∀ l : List (Cell F), (∀ c ∈ l, c.shape.isSome = true) → exportLoop l = .ok () := by
  intro l
  induction l with
  | nil => intro _; rfl
  | cons m ms ih =>
    intro h
    rw [exportLoop, ih fun c hc => h c (by simp [hc])]
    have := h m (by simp)
    cases hm : m.shape with
    | none => rw [hm] at this; cases this
    | some a => simp

/-! ## what the phases leave alone -/

/-- what no phase before the numbering changes -/
def key (c : Cell F) : Option Int × Bool × Bool × Int × List Char × Option (Box F) × Option (List Int) :=
  (c.id, c.isEncl, c.void, c.enclID, c.comments, c.shape, c.info)

theorem map_set_same {α β : Type} (f : α → β) : ∀ (h : List α) (r : Nat) (c c' : α), h[r]? = some c → f c' = f c → (h.set r c').map f = h.map f := by
  intro h
  induction h with
  | nil => intro r c c' _ _; rfl
  | cons a h ih =>
    intro r c c' hr e
    cases r with
    | zero => simp only [List.getElem?_cons_zero, Option.some.injEq] at hr; subst hr; simp [e]
    | succ r => rw [List.getElem?_cons_succ] at hr; simp [ih r c c' hr e]

/-- keys are kept, and so are the cells that are enclosures -/
structure Keeps (h h' : List (Cell F)) : Prop where
  keys : h'.map key = h.map key
  encl : ∀ (r : Nat) (c : Cell F), h[r]? = some c → c.isEncl = true → h'[r]? = some c

theorem Keeps.refl (h : List (Cell F)) : Keeps h h := ⟨rfl, fun _ _ e _ => e⟩

theorem Keeps.trans {a b c : List (Cell F)} (h1 : Keeps a b) (h2 : Keeps b c) : Keeps a c :=
  ⟨h2.keys.trans h1.keys, fun r x e hx => h2.encl r x (h1.encl r x e hx) hx⟩

theorem keeps_set {h : List (Cell F)} {r : Nat} {c c' : Cell F} (hr : h[r]? = some c) (hk : key c' = key c) (he : c.isEncl = false) : Keeps h (h.set r c') := by
  refine ⟨map_set_same key h r c c' hr hk, fun r' x hx hxe => ?_⟩
  by_cases e : r = r'
  · subst e; rw [hr] at hx; cases hx; rw [he] at hxe; cases hxe
  · rw [List.getElem?_set_ne e]; exact hx

theorem key_setDefn (c : Cell F) (d : Seq) : key (c.setDefn d) = key c := rfl

theorem buildLoop_keeps {K : Kit F S} : ∀ (l : List Nat) (h : List (Cell F)) (s : S) (co : List (Option Int × List Int)) (r : S × List (Cell F) × List (Option Int × List Int)),
    buildLoop K true l h s co = .ok r → Keeps h r.2.1 := by
  intro l
  induction l with
  | nil => intro h s co r e; cases e; exact .refl _
  | cons x xs ih =>
    intro h s co r e
    rw [buildLoop] at e
    cases hx : h[x]? with
    | none => rw [hx] at e; exact ih _ _ _ _ e
    | some c =>
      rw [hx] at e
      dsimp only at e
      by_cases hc : c.isEncl = true
      · rw [if_pos (by simp [hc])] at e; exact ih _ _ _ _ e
      · rw [if_neg (by simp [hc])] at e
        cases hb : K.build s c with
        | error y => rw [hb] at e; cases e
        | ok y =>
          rw [hb] at e
          exact (keeps_set hx (key_setDefn c _) (by simpa using hc)).trans (ih _ _ _ _ e)

theorem facetLoop_keeps {K : Kit F S} : ∀ (l : List Nat) (h : List (Cell F)) (s : S) (r : S × List (Cell F)),
    facetLoop K l h s = .ok r → Keeps h r.2 := by
  intro l
  induction l with
  | nil => intro h s r e; cases e; exact .refl _
  | cons x xs ih =>
    intro h s r e
    rw [facetLoop] at e
    cases hx : h[x]? with
    | none => rw [hx] at e; exact ih _ _ _ e
    | some c =>
      rw [hx] at e
      dsimp only at e
      by_cases hc : c.isEncl = true
      · rw [if_pos hc] at e; exact ih _ _ _ e
      · rw [if_neg hc] at e
        cases hb : K.facet s c with
        | error y => rw [hb] at e; cases e
        | ok y =>
          rw [hb] at e
          exact (keeps_set hx (key_setDefn c _) (by simpa using hc)).trans (ih _ _ _ e)

/-- only the keys are kept -/
theorem buildLoop_keys {K : Kit F S} {mm : Bool} : ∀ (l : List Nat) (h : List (Cell F)) (s : S) (co : List (Option Int × List Int)) (r : S × List (Cell F) × List (Option Int × List Int)),
    buildLoop K mm l h s co = .ok r → r.2.1.map key = h.map key := by
  intro l
  induction l with
  | nil => intro h s co r e; cases e; rfl
  | cons x xs ih =>
    intro h s co r e
    rw [buildLoop] at e
    cases hx : h[x]? with
    | none => rw [hx] at e; exact ih _ _ _ _ e
    | some c =>
      rw [hx] at e
      dsimp only at e
      split at e
      · exact ih _ _ _ _ e
      · cases hb : K.build s c with
        | error y => rw [hb] at e; cases e
        | ok y =>
          rw [hb] at e
          exact (ih _ _ _ _ e).trans (map_set_same key h x c _ hx (key_setDefn c _))

theorem setAll_keys : ∀ (l : List Nat) (ds : List Seq) (h : List (Cell F)), (setAll l ds h).map key = h.map key := by
  intro l
  induction l with
  | nil => intro ds h; cases ds <;> rfl
  | cons x xs ih =>
    intro ds h
    cases ds with
    | nil => rfl
    | cons d ds =>
      rw [setAll]
      cases hx : h[x]? with
      | none => exact ih _ _
      | some c => exact (ih _ _).trans (map_set_same key h x c _ hx (key_setDefn c _))

theorem noOverlapStep_keys {K : Kit F S} {l : List Nat} {h h' : List (Cell F)} {s : S} (e : noOverlapStep K l h s = .ok h') : h'.map key = h.map key := by
  unfold noOverlapStep at e
  split at e
  · cases e
  · cases e; rfl
  · simp only [bind, Except.bind] at e
    split at e
    · cases e
    · split at e
      · cases e
      · cases e; exact setAll_keys _ _ _

theorem defns_ok {l : List (Cell F)} {ds : List Seq} (h : defns l = .ok ds) : ∀ c ∈ l, c.defn.isSome = true := by
  induction l generalizing ds with
  | nil => intro c hc; cases hc
  | cons m ms ih =>
    rw [defns] at h
    cases hm : m.defn with
    | none => rw [hm] at h; cases h
    | some d =>
      rw [hm] at h
      cases hr : defns ms with
      | error x => simp only [bind, Except.bind, hr] at h; cases h
      | ok r =>
        intro c hc
        rcases List.mem_cons.1 hc with rfl | hc
        · simp [hm]
        · exact ih hr c hc

theorem defns_total {l : List (Cell F)} (h : ∀ c ∈ l, c.defn.isSome = true) : ∃ ds, defns l = .ok ds := by
  induction l with
  | nil => exact ⟨[], rfl⟩
  | cons m ms ih =>
    obtain ⟨r, hr⟩ := ih fun c hc => h c (by simp [hc])
    obtain ⟨d, hd⟩ := Option.isSome_iff_exists.1 (h m (by simp))
    exact ⟨d :: r, by rw [defns, hd]; simp only [bind, Except.bind, hr]⟩

/-! ## the phases -/

omit [IsStrictOrderedRing F] in
/-- a run that ends is made of its phases -/
theorem start_inv {K : Kit F S} {o : Opts} {st st' : State F S} (h : start K o st = .ok st') :
    st.metas ≠ [] ∧ ∃ b, geometryBox 10 (st.cells st.metas) = .ok b ∧
      ∃ x, solidPhase K o { st with box := some b, surf := some (K.empty (o.startSurf - 1)) } (K.empty (o.startSurf - 1)) = .ok x ∧
        ∃ e, enclPhase K o x.1 x.2.1 x.2.2.2.2 = .ok e ∧ ∃ v, voidPhase K o e.1 e.2.1 = .ok v ∧
          endPhase K o v.1 v.2.1 v.2.2 x.2.2.1 x.2.2.2.1 e.2.2 = .ok st' := by
  unfold start at h
  split at h
  · cases h
  · rename_i hm
    simp only [bind, Except.bind] at h
    split at h
    · cases h
    · split at h
      · cases h
      · rename_i b hb
        split at h
        · cases h
        · rename_i x hx
          split at h
          · cases h
          · rename_i e he
            split at h
            · cases h
            · rename_i v hv
              refine ⟨by simpa using hm, b, orLeave_ok.1 hb, x, hx, e, he, v, hv, h⟩

/-- the phase of the solids keeps everything but definitions -/
theorem solidPhase_inv {K : Kit F S} {o : Opts} {st : State F S} {s0 : S} {x : State F S × S × List Nat × List Nat × List (Option Int × List Int)}
    (h : solidPhase K o st s0 = .ok x) :
    x.1.heap.map key = st.heap.map key ∧ x.1.metas = st.metas ∧ x.1.encl = st.encl ∧ x.1.box = st.box ∧
      ((o.noOverlap = false ∨ o.facets = true) → Keeps st.heap x.1.heap) := by
  unfold solidPhase at h
  simp only [bind, Except.bind] at h
  split at h
  · rename_i hf
    split at h
    · cases h
    · rename_i y hy
      have hk := facetLoop_keeps _ _ _ _ (orLeave_ok.1 hy)
      split at h
      · split at h
        · cases h
        · cases h; exact ⟨hk.keys, rfl, rfl, rfl, fun _ => hk⟩
      · cases h; exact ⟨hk.keys, rfl, rfl, rfl, fun _ => hk⟩
  · rename_i hf
    split at h
    · cases h
    · split at h
      · cases h
      · split at h
        · cases h
        · rename_i b hb
          have hk := buildLoop_keeps _ _ _ _ _ (orLeave_ok.1 hb)
          split at h
          · rename_i hn
            split at h
            · cases h
            · rename_i h' hh
              cases h
              have := noOverlapStep_keys (orLeave_ok.1 hh)
              exact ⟨this.trans hk.keys, rfl, rfl, rfl, fun hc => by simp_all⟩
          · cases h; exact ⟨hk.keys, rfl, rfl, rfl, fun _ => hk⟩

theorem enclPhase_inv {K : Kit F S} {o : Opts} {st : State F S} {s : S} {co : List (Option Int × List Int)} {x : State F S × S × List (Option Int × List Int)}
    (h : enclPhase K o st s co = .ok x) : x.1.heap.map key = st.heap.map key ∧ x.1.metas = st.metas ∧ x.1.encl = st.encl ∧ x.1.box = st.box ∧
      (o.voidGen = false → x.1.heap = st.heap) := by
  unfold enclPhase at h
  split at h
  · rename_i hv
    simp only [bind, Except.bind] at h
    split at h
    · cases h
    · rename_i b hb
      cases h
      refine ⟨buildLoop_keys _ _ _ _ _ (orLeave_ok.1 hb), rfl, rfl, rfl, fun h => by simp [h] at hv⟩
  · cases h; exact ⟨rfl, rfl, rfl, rfl, fun _ => rfl⟩

theorem voidPhase_inv {K : Kit F S} {o : Opts} {st : State F S} {s : S} {x : State F S × S × List Nat} (h : voidPhase K o st s = .ok x) :
    (∃ vs, x.1.heap = st.heap ++ vs) ∧ x.1.metas = st.metas ∧ x.1.encl = st.encl ∧ x.1.box = st.box ∧ (o.voidGen = false → x.1.heap = st.heap ∧ x.2.2 = []) := by
  unfold voidPhase at h
  split at h
  · rename_i hv
    simp only [bind, Except.bind] at h
    split at h
    · cases h
    · rename_i b hb
      cases h
      exact ⟨⟨_, rfl⟩, rfl, rfl, rfl, fun h => by simp [h] at hv⟩
  · cases h; exact ⟨⟨[], by simp⟩, rfl, rfl, rfl, fun _ => ⟨rfl, rfl⟩⟩

theorem simpLoop_keys {K : Kit F S} {s : S} : ∀ (l : List Nat) (h h' : List (Cell F)), simpLoop K s l h = .ok h' →
    h'.map key = h.map key ∧ h'.map (·.null) = h.map (·.null) := by
  intro l
  induction l with
  | nil => intro h h' e; cases e; exact ⟨rfl, rfl⟩
  | cons x xs ih =>
    intro h h' e
    rw [simpLoop] at e
    cases hx : h[x]? with
    | none => rw [hx] at e; exact ih _ _ e
    | some c =>
      rw [hx] at e
      dsimp only at e
      cases hd : c.defn with
      | none => rw [hd] at e; cases e
      | some d =>
        rw [hd] at e
        dsimp only at e
        split at e
        · exact ih _ _ e
        · cases hs : K.simp s c d with
          | error y => rw [hs] at e; cases e
          | ok y =>
            rw [hs] at e
            have e' : simpLoop K s xs (h.set x { c with defn := some y }) = .ok h' := e
            obtain ⟨a, b⟩ := ih _ _ e'
            exact ⟨a.trans (map_set_same key h x c { c with defn := some y } hx rfl),
              b.trans (map_set_same (·.null) h x c { c with defn := some y } hx rfl)⟩

/-- a cell without definition stops the simplification -/
theorem simpLoop_none {K : Kit F S} {s : S} : ∀ (l : List Nat) (h h' : List (Cell F)), (∃ r ∈ l, ∃ c, h[r]? = some c ∧ c.defn = none) →
    simpLoop K s l h ≠ .ok h' := by
  intro l
  induction l with
  | nil => rintro h h' ⟨r, hr, -⟩; cases hr
  | cons x xs ih =>
    rintro h h' ⟨r, hr, c0, hc0, hn⟩ e
    rw [simpLoop] at e
    cases hx : h[x]? with
    | none =>
      rw [hx] at e
      rcases List.mem_cons.1 hr with rfl | hr
      · rw [hx] at hc0; cases hc0
      · exact ih _ _ ⟨r, hr, c0, hc0, hn⟩ e
    | some c =>
      rw [hx] at e
      dsimp only at e
      cases hd : c.defn with
      | none => rw [hd] at e; cases e
      | some d =>
        rw [hd] at e
        dsimp only at e
        have hne : x ≠ r := by rintro rfl; rw [hx] at hc0; cases hc0; rw [hn] at hd; cases hd
        have hr' : r ∈ xs := by
          rcases List.mem_cons.1 hr with rfl | hr
          · exact absurd rfl hne
          · exact hr
        split at e
        · exact ih _ _ ⟨r, hr', c0, hc0, hn⟩ e
        · cases hs : K.simp s c d with
          | error y => rw [hs] at e; cases e
          | ok y =>
            rw [hs] at e
            exact ih _ _ ⟨r, hr', c0, by rw [List.getElem?_set_ne hne]; exact hc0, hn⟩ e

theorem coneLoop_keys {K : Kit F S} {co : List (Option Int × List Int)} : ∀ (l : List Nat) (h : List (Cell F)) (s : S) (r : S × List (Cell F)),
    coneLoop K co l h s = .ok r → r.2.map key = h.map key := by
  intro l
  induction l with
  | nil => intro h s r e; cases e; rfl
  | cons x xs ih =>
    intro h s r e
    rw [coneLoop] at e
    cases hx : h[x]? with
    | none => rw [hx] at e; exact ih _ _ _ e
    | some c =>
      rw [hx] at e
      dsimp only at e
      cases hd : c.defn with
      | none => rw [hd] at e; exact ih _ _ _ e
      | some d =>
        rw [hd] at e
        dsimp only at e
        split at e
        · split at e
          · exact ih _ _ _ e
          · rename_i ids _
            simp only [bind, Except.bind] at e
            split at e
            · cases e
            · rename_i y _
              exact (ih _ _ _ e).trans (map_set_same key h x c { c with defn := some y.2 } hx rfl)
        · split at e
          · exact ih _ _ _ e
          · simp only [bind, Except.bind] at e
            split at e
            · cases e
            · rename_i y _
              exact (ih _ _ _ e).trans (map_set_same key h x c { c with defn := some y.2 } hx rfl)

theorem place_prefix : ∀ (os : List Labels.Out) (h : List (Cell F)), ∃ t, (place os h).1 = h ++ t := by
  intro os
  induction os with
  | nil => intro h; exact ⟨[], by simp [place]⟩
  | cons o os ih =>
    intro h
    cases o with
    | comment =>
      obtain ⟨t, ht⟩ := ih (h ++ [banner])
      exact ⟨banner :: t, by simp [place, ht]⟩
    | cell c =>
      obtain ⟨t, ht⟩ := ih h
      exact ⟨t, by simp [place, ht]⟩

theorem place_banner : ∀ (os : List Labels.Out) (h : List (Cell F)), Labels.Out.comment ∈ os →
    ∃ r ∈ (place os h).2, (place os h).1[r]? = some banner := by
  intro os
  induction os with
  | nil => intro h e; cases e
  | cons o os ih =>
    intro h e
    cases o with
    | comment =>
      refine ⟨h.length, by simp [place], ?_⟩
      obtain ⟨t, ht⟩ := place_prefix os (h ++ [banner])
      simp [place, ht]
    | cell c =>
      rcases List.mem_cons.1 e with e | e
      · cases e
      · obtain ⟨r, h1, h2⟩ := ih h e
        exact ⟨r, by simp [place, h1], by simpa [place] using h2⟩

theorem number_comment {sc : Int} {so : Bool} {ms vs : List Labels.Cell} {n : Labels.St × List Labels.Out} (h : Labels.number sc so ms vs = .ok n) :
    Labels.Out.comment ∈ n.2 := by
  unfold Labels.number at h
  split at h
  · unfold Labels.sorted at h
    simp only [bind, Except.bind] at h
    split at h
    · cases h
    · split at h
      · cases h
      · split at h
        · cases h
        · cases h; simp
  · unfold Labels.plain at h
    simp only [bind, Except.bind] at h
    split at h
    · cases h
    · cases h; simp

/-- the end: the box stays, and there is a comment cell in the list -/
theorem endPhase_inv {K : Kit F S} {o : Opts} {st st' : State F S} {s : S} {voids warn warnE : List Nat} {co : List (Option Int × List Int)}
    (h : endPhase K o st s voids warn warnE co = .ok st') : st'.box = st.box ∧ st'.metas ≠ [] ∧ ∃ c ∈ st'.cells st'.metas, c.shape = none := by
  unfold endPhase at h
  simp only [bind, Except.bind] at h
  split at h
  · cases h
  · split at h
    · cases h
    · rename_i h1 _ _ n hn
      split at h
      · cases h
      · split at h
        · cases h
        · split at h
          · cases h
          · rename_i c hc
            cases h
            have hn' : Labels.Out.comment ∈ n.2 := by
              have := orLeave_ok.1 hn
              unfold labelErr at this
              split at this
              · rename_i a ha
                cases this
                exact number_comment ha
              · cases this
            obtain ⟨r, hr, hb⟩ := place_banner n.2 (setLabels n.1 (st.metas ++ voids) h1) hn'
            have hk := coneLoop_keys _ _ _ _ (orLeave_ok.1 hc)
            refine ⟨rfl, ?_, ?_⟩
            · intro e
              simp only at e
              rw [e] at hr; cases hr
            · have hget : (c.2.map key)[r]? = some (key banner) := by
                rw [hk]; simp [hb]
              rw [List.getElem?_map] at hget
              cases hcr : c.2[r]? with
              | none => rw [hcr] at hget; cases hget
              | some x =>
                rw [hcr] at hget
                have hx : key x = key banner := by simpa using hget
                refine ⟨x, ?_, ?_⟩
                · exact List.mem_filterMap.2 ⟨r, hr, hcr⟩
                · exact congrArg (fun k => k.2.2.2.2.2.1) hx

/-! ## watching void generation -/

theorem watch_empty (K : Kit F S) (good : List (Cell F) → Prop) [DecidablePred good] : (K.watch good).empty = K.empty := rfl

theorem splitLoop_watch (K : Kit F S) (good : List (Cell F) → Prop) [DecidablePred good] (mm : Bool) : ∀ (l : List (Cell F)) (i : Nat) (s : S),
    splitLoop (K.watch good) mm i l s = splitLoop K mm i l s := by
  intro l
  induction l with
  | nil => intro i s; rfl
  | cons m ms ih => intro i s; simp only [splitLoop, ih]; rfl

theorem buildLoop_watch (K : Kit F S) (good : List (Cell F) → Prop) [DecidablePred good] (mm : Bool) : ∀ (l : List Nat) (h : List (Cell F)) (s : S)
    (co : List (Option Int × List Int)), buildLoop (K.watch good) mm l h s co = buildLoop K mm l h s co := by
  intro l
  induction l with
  | nil => intro h s co; rfl
  | cons m ms ih => intro h s co; simp only [buildLoop, ih]; rfl

theorem facetLoop_watch (K : Kit F S) (good : List (Cell F) → Prop) [DecidablePred good] : ∀ (l : List Nat) (h : List (Cell F)) (s : S),
    facetLoop (K.watch good) l h s = facetLoop K l h s := by
  intro l
  induction l with
  | nil => intro h s; rfl
  | cons m ms ih => intro h s; simp only [facetLoop, ih]; rfl

theorem simpLoop_watch (K : Kit F S) (good : List (Cell F) → Prop) [DecidablePred good] (s : S) : ∀ (l : List Nat) (h : List (Cell F)),
    simpLoop (K.watch good) s l h = simpLoop K s l h := by
  intro l
  induction l with
  | nil => intro h; rfl
  | cons m ms ih => intro h; simp only [simpLoop, ih]; rfl

theorem warnLoop_watch (K : Kit F S) (good : List (Cell F) → Prop) [DecidablePred good] : ∀ (l : List (Cell F)),
    warnLoop (K.watch good) l = warnLoop K l := by
  intro l
  induction l with
  | nil => rfl
  | cons m ms ih => simp only [warnLoop, ih]; rfl

theorem coneLoop_watch (K : Kit F S) (good : List (Cell F) → Prop) [DecidablePred good] (co : List (Option Int × List Int)) :
    ∀ (l : List Nat) (h : List (Cell F)) (s : S), coneLoop (K.watch good) co l h s = coneLoop K co l h s := by
  intro l
  induction l with
  | nil => intro h s; rfl
  | cons m ms ih => intro h s; simp only [coneLoop, ih]; rfl

theorem solidPhase_watch (K : Kit F S) (good : List (Cell F) → Prop) [DecidablePred good] (o : Opts) (st : State F S) (s : S) :
    solidPhase (K.watch good) o st s = solidPhase K o st s := by
  simp only [solidPhase, facetLoop_watch, splitLoop_watch, buildLoop_watch]; rfl

theorem enclPhase_watch (K : Kit F S) (good : List (Cell F) → Prop) [DecidablePred good] (o : Opts) (st : State F S) (s : S) (co : List (Option Int × List Int)) :
    enclPhase (K.watch good) o st s co = enclPhase K o st s co := by
  simp only [enclPhase, buildLoop_watch]

theorem endPhase_watch (K : Kit F S) (good : List (Cell F) → Prop) [DecidablePred good] (o : Opts) (st : State F S) (s : S) (v w w' : List Nat)
    (co : List (Option Int × List Int)) : endPhase (K.watch good) o st s v w w' co = endPhase K o st s v w w' co := by
  simp only [endPhase, simpLoop_watch, warnLoop_watch, coneLoop_watch]

/-- cells with the same keys: the same places -/
theorem cells_key {h h' : List (Cell F)} (e : h'.map key = h.map key) (l : List Nat) :
    (l.filterMap fun r => h'[r]?).map key = (l.filterMap fun r => h[r]?).map key := by
  have : ∀ g : List (Cell F), (l.filterMap fun r => g[r]?).map key = l.filterMap fun r => (g.map key)[r]? := by
    intro g
    rw [List.map_filterMap]
    congr 1
    funext r
    rw [List.getElem?_map]
  rw [this, this, e]

open Classical in
/-- the cells kept depend on the keys only -/
theorem kept_key (words : List (List Char)) : ∀ (l l' : List (Cell F)), l'.map key = l.map key →
    (l'.filter fun c => decide (words = [] ∨ c.isEncl = false ∧ ¬c.Marked words)).map ident =
      (l.filter fun c => decide (words = [] ∨ c.isEncl = false ∧ ¬c.Marked words)).map ident := by
  intro l
  induction l with
  | nil => intro l' e; cases l' with
    | nil => rfl
    | cons _ _ => cases e
  | cons c cs ih =>
    intro l' e
    cases l' with
    | nil => cases e
    | cons c' cs' =>
      rw [List.map_cons, List.map_cons, List.cons.injEq] at e
      obtain ⟨e1, e2⟩ := e
      have h1 : c'.isEncl = c.isEncl := congrArg (fun k => k.2.1) e1
      have h2 : c'.comments = c.comments := congrArg (fun k => k.2.2.2.2.1) e1
      have h3 : ident c' = ident c := by
        have a1 : c'.id = c.id := congrArg (fun k => k.1) e1
        have a2 : c'.shape = c.shape := congrArg (fun k => k.2.2.2.2.2.1) e1
        simp only [ident, a1, a2, h2]
      have h4 : (words = [] ∨ c'.isEncl = false ∧ ¬c'.Marked words) ↔ (words = [] ∨ c.isEncl = false ∧ ¬c.Marked words) := by
        simp only [Cell.Marked, h1, h2]
      have hih := ih cs' e2
      by_cases h : words = [] ∨ c.isEncl = false ∧ ¬c.Marked words
      · rw [List.filter_cons_of_pos (by simpa using h4.2 h), List.filter_cons_of_pos (by simpa using h), List.map_cons, List.map_cons, h3, hih]
      · rw [List.filter_cons_of_neg (by simpa using fun x => h (h4.1 x)), List.filter_cons_of_neg (by simpa using h), hih]

end Geouned.Driver
