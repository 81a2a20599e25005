import Verif.RCore.SetSpec
import Mathlib.Tactic.Linarith
import Mathlib.Tactic.NormNum
/-!
# C126: the box in which GEOReverse builds is that of the settings
-/
namespace Geouned.RCore

/-! ### Lemmas -/

/-- the object was made with the box that its values ask for, or was resized since -/
def Right (x : Sett) : Prop := ∃ b, Asks x.radius x.dims b ∧ (Thick b → x.box = some b)

theorem boxOf_thick {b : Box} (h : Thick b) : boxOf b = some b := by
  obtain ⟨h1, h2, h3⟩ := h
  unfold boxOf
  rw [if_neg (not_le.2 h1), if_neg (not_le.2 h2), if_neg (not_le.2 h3)]

theorem setUniverseBox_right {r t : ℚ} {d : Option (List ℚ)} {x : Sett} (h : setUniverseBox r t d = .ok x) : Right x := by
  unfold setUniverseBox at h
  split at h
  · cases h
    exact ⟨_, .inl ⟨rfl, rfl⟩, boxOf_thick⟩
  · split at h
    · cases h
      exact ⟨_, .inr ⟨_, _, _, _, _, _, rfl, rfl⟩, boxOf_thick⟩
    · cases h

theorem newSettings_right {r t d : V} {x : Sett} (h : newSettings r t d = .ok x) : Right x := by
  unfold newSettings at h
  split at h
  · cases h
  · split at h
    · cases h
    · split at h
      · cases h
      · exact setUniverseBox_right h

theorem modify_get {s : List Sett} {i j : Nat} {f : Sett → Sett} {x : Sett} (h : (s.modify i f)[j]? = some x) :
    ∃ y, s[j]? = some y ∧ (x = y ∨ (i = j ∧ x = f y)) := by
  rw [List.getElem?_modify] at h
  cases hs : s[j]? with
  | none => rw [hs] at h; simp at h
  | some y =>
    rw [hs] at h
    refine ⟨y, rfl, ?_⟩
    by_cases hij : i = j
    · simp [hij] at h
      exact .inr ⟨hij, h.symm⟩
    · simp [hij] at h
      exact .inl h.symm

/-- the invariant: the objects of `P` are right, the converters have the boxes of their settings -/
structure Inv (P : Nat → Prop) (s : State) : Prop where
  right : ∀ i x, s.setts[i]? = some x → P i → Right x
  conv : ∀ c ∈ s.convs, ∃ x, s.setts[c.1]? = some x ∧ x.box = c.2

theorem step_inv {P : Nat → Prop} {s : State} {o : Op} (h : Inv P s) (ho : ∀ i, P i → ¬ Resizes i o) : Inv P (step s o).1 := by
  have hmod : ∀ i (f : Sett → Sett), (∀ x, (f x).box = x.box) → (∀ x, P i → Right x → Right (f x)) → Inv P ⟨s.setts.modify i f, s.convs⟩ := by
    intro i f hb hr
    constructor
    · intro j x hx hP
      obtain ⟨y, hy, rfl | ⟨rfl, rfl⟩⟩ := modify_get hx
      · exact h.right j _ hy hP
      · exact hr y hP (h.right i _ hy hP)
    · intro c hc
      obtain ⟨x, hx, hxb⟩ := h.conv c hc
      by_cases hi : i = c.1
      · refine ⟨f x, ?_, by rw [hb, hxb]⟩
        show (s.setts.modify i f)[c.1]? = _
        rw [List.getElem?_modify, hx]
        simp [hi]
      · refine ⟨x, ?_, hxb⟩
        show (s.setts.modify i f)[c.1]? = _
        rw [List.getElem?_modify, hx]
        simp [hi]
  cases o with
  | settings r t d =>
    unfold step
    dsimp only
    split
    · next x hx =>
      constructor
      · intro i y hy hP
        simp only [List.getElem?_append] at hy
        split at hy
        · exact h.right i y hy hP
        · rw [List.getElem?_singleton] at hy
          split at hy
          · cases hy
            exact newSettings_right hx
          · cases hy
      · intro c hc
        obtain ⟨y, hy, hyb⟩ := h.conv c hc
        exact ⟨y, by
          show (s.setts ++ [x])[c.1]? = _
          rw [List.getElem?_append, if_pos (List.getElem?_eq_some_iff.1 hy).1, hy], hyb⟩
    · exact h
  | setRadius i v =>
    unfold step
    dsimp only
    split
    · exact hmod i _ (fun _ => rfl) fun x hP _ => absurd rfl (ho i hP)
    · exact h
  | setTol i v =>
    unfold step
    dsimp only
    split
    · exact hmod i _ (fun _ => rfl) fun x _ hx => hx
    · exact h
  | setDims i v =>
    unfold step
    dsimp only
    split
    · exact hmod i _ (fun _ => rfl) fun x hP _ => absurd rfl (ho i hP)
    · exact h
  | converter i =>
    unfold step
    dsimp only
    split
    · next x hx =>
      refine ⟨h.right, fun c hc => ?_⟩
      rcases List.mem_append.1 hc with hc | hc
      · exact h.conv c hc
      · rw [List.mem_singleton] at hc
        subst hc
        exact ⟨x, hx, rfl⟩
    · exact h

theorem runOps_inv {P : Nat → Prop} : ∀ (os : List Op) (s : State), Inv P s → (∀ o ∈ os, ∀ i, P i → ¬ Resizes i o) → Inv P (runOps os s)
  | [], s, h, _ => h
  | o :: os, s, h, ho => runOps_inv os _ (step_inv h (ho o (by simp))) fun o' h' => ho o' (by simp [h'])

theorem start_inv (P : Nat → Prop) : Inv P start := by
  constructor
  · intro i x hx _
    cases i with
    | zero =>
      cases hx
      exact ⟨_, .inl ⟨rfl, rfl⟩, boxOf_thick⟩
    | succ i => simp [start] at hx
  · intro c hc
    simp [start] at hc

/-! ### The box of the settings -/

/-- **C126** in full, first part: in every session, a converter builds in the box that the values of its settings ask for -/
def C126_statement : Prop :=
  ∀ (os : List Op) (s : State), Reached os s → ∀ (i : Nat) (u : Option Box) (x : Sett), (i, u) ∈ s.convs → s.setts[i]? = some x →
    ∀ b, Asks x.radius x.dims b → Thick b → u = some b

/-- C126 is false of the code: `settings.box_dimensions = ...` is accepted but has no effect on the box, even before the converter is made. -/
theorem C126_violated : ¬ C126_statement := by
  intro h
  have := h [.settings (.num 1000) (.num 1) .none, .setDims 1 (.seq [.num 0, .num 0, .num 0, .num 10, .num 10, .num 10]), .converter (some 1)] _ rfl 1
    (some ⟨-1000, -1000, -1000, 1000, 1000, 1000⟩) ⟨1000, 1, some [0, 0, 0, 10, 10, 10], some ⟨-1000, -1000, -1000, 1000, 1000, 1000⟩⟩ (by decide +kernel) (by decide +kernel)
    ⟨0, 0, 0, 10, 10, 10⟩ (.inr ⟨0, 0, 0, 10, 10, 10, rfl, rfl⟩) (by unfold Thick; norm_num)
  exact absurd this (by decide)

/-- **C126**, proved part: when no statement of the session changes radius or dimensions of the settings after they were made, the converter builds in the box of these values; whatever else is
done with this or other objects. Missing: settings that are changed (there C126 is false). -/
theorem C126_box_partial (os : List Op) (s : State) (hs : Reached os s) (i : Nat) (u : Option Box) (x : Sett) (hc : (i, u) ∈ s.convs) (hx : s.setts[i]? = some x) (hno : ∀ o ∈ os, ¬ Resizes i o)
    (b : Box) (hb : Asks x.radius x.dims b) (ht : Thick b) : u = some b := by
  have hinv : Inv (fun j => j = i) s := hs ▸ runOps_inv os start (start_inv _) (fun o ho j hj => by subst hj; exact hno o ho)
  obtain ⟨y, hy, hyb⟩ := hinv.conv _ hc
  rw [hx] at hy
  cases hy
  obtain ⟨b', h1, h2⟩ := hinv.right i x hx rfl
  have e : b' = b := by
    rcases h1 with ⟨d1, rfl⟩ | ⟨x0, y0, z0, x1, y1, z1, d1, rfl⟩ <;> rcases hb with ⟨d2, rfl⟩ | ⟨_, _, _, _, _, _, d2, rfl⟩
    · rfl
    · rw [d1] at d2; cases d2
    · rw [d1] at d2; cases d2
    · rw [d1] at d2; cases d2; rfl
  subst e
  exact hyb.symm.trans (h2 ht)

/-- Non-vacuity: settings with dimensions and a converter, then other statements. -/
example :
    let os : List Op := [.settings (.num 1000) (.num 1) (.seq [.num 0, .num 0, .num 0, .num 10, .num 20, .num 30]), .converter (some 1), .setTol 1 (.num 2), .setRadius 0 (.num 5), .converter Option.none]
    ∃ s x, Reached os s ∧ (1, some ⟨0, 0, 0, 10, 20, 30⟩) ∈ s.convs ∧ s.setts[1]? = some x ∧ (∀ o ∈ os, ¬ Resizes 1 o) ∧ Asks x.radius x.dims ⟨0, 0, 0, 10, 20, 30⟩ ∧ x.radius = 30 := by
  intro os
  refine ⟨_, ⟨30, 2, some [0, 0, 0, 10, 20, 30], some ⟨0, 0, 0, 10, 20, 30⟩⟩, rfl, by decide +kernel, by decide +kernel, ?_, .inr ⟨_, _, _, _, _, _, rfl, rfl⟩, rfl⟩
  intro o ho
  simp only [os, List.mem_cons, List.not_mem_nil, or_false] at ho
  rcases ho with rfl | rfl | rfl | rfl | rfl <;> simp [Resizes]

/-! ### The documented radius -/

/-- the documentation of `universe_radius`: what lies farther than the radius from the origin is not represented -/
def C126_radius_statement : Prop :=
  ∀ (r t d : V) (x : Sett) (b : Box), newSettings r t d = .ok x → x.box = some b → ∀ p q w : ℚ, b.Has p q w → p ^ 2 + q ^ 2 + w ^ 2 ≤ x.radius ^ 2

/-- it is false: the corners of the cube are kept -/
theorem C126_radius_violated : ¬ C126_radius_statement := by
  intro h
  have := h (.num 1) (.num 1) .none ⟨1, 1, Option.none, some ⟨-1, -1, -1, 1, 1, 1⟩⟩ ⟨-1, -1, -1, 1, 1, 1⟩ (by decide +kernel) rfl 1 1 1 (by unfold Box.Has; norm_num)
  norm_num at this

/-- **C126**, proved part on the radius: no coordinate of a point that is represented exceeds the radius, whether it was given or comes from the dimensions. -/
theorem C126_radius_partial (r t d : V) (x : Sett) (b : Box) (h : newSettings r t d = .ok x) (hb : x.box = some b) (p q w : ℚ) (hp : b.Has p q w) : |p| ≤ x.radius ∧ |q| ≤ x.radius ∧ |w| ≤ x.radius := by
  have hbox : ∀ {c : Box}, boxOf c = some b → b = c := by
    intro c hc
    unfold boxOf at hc
    split at hc
    · cases hc
    · split at hc
      · cases hc
      · split at hc
        · cases hc
        · cases hc; rfl
  have hsq : ∀ {lo hi y m : ℚ}, lo ≤ y → y ≤ hi → |lo| ≤ m → |hi| ≤ m → |y| ≤ m := by
    intro lo hi y m h1 h2 h3 h4
    rw [abs_le] at *
    constructor <;> linarith [h3.1, h4.2]
  obtain ⟨h1, h2, h3, h4, h5, h6⟩ := hp
  unfold newSettings at h
  split at h
  · cases h
  · split at h
    · cases h
    · split at h
      · cases h
      · unfold setUniverseBox at h
        split at h
        · cases h
          have e := hbox hb
          subst e
          simp only at *
          refine ⟨abs_le.2 ⟨h1, h2⟩, abs_le.2 ⟨h3, h4⟩, abs_le.2 ⟨h5, h6⟩⟩
        · split at h
          · cases h
            have e := hbox hb
            subst e
            simp only at *
            refine ⟨hsq h1 h2 ?_ ?_, hsq h3 h4 ?_ ?_, hsq h5 h6 ?_ ?_⟩ <;> simp only [le_max_iff, le_refl, true_or, or_true]
          · cases h

/-! ### Shared settings -/

/-- a statement about the settings of one converter has no effect on another converter -/
def C126_apart_statement : Prop :=
  ∀ (os : List Op) (s : State), Reached os s → ∀ (k l i j : Nat) (u w : Option Box), k ≠ l → s.convs[k]? = some (i, u) → s.convs[l]? = some (j, w) →
    ∀ (v : V), (step s (.setTol i v)).1.setts[j]? = s.setts[j]?

/-- it is false: two converters made without settings share one object, so that `a.settings.insolid_tolerance = 5` changes how `b` builds. -/
theorem C126_apart_violated : ¬ C126_apart_statement := by
  intro h
  have := h [.converter Option.none, .converter Option.none] _ rfl 0 1 0 0 _ _ (by decide) rfl rfl (.num 5)
  exact absurd this (by decide +kernel)

/-- **C126**, proved part: converters with different settings objects do not influence each other: a statement about the object `i` changes no other object and no box. -/
theorem C126_apart_partial (s : State) (i j : Nat) (hij : i ≠ j) (v : V) (o : Op) (ho : o = .setTol i v ∨ o = .setRadius i v ∨ o = .setDims i v) :
    (step s o).1.setts[j]? = s.setts[j]? ∧ (step s o).1.convs = s.convs := by
  have hm : ∀ f : Sett → Sett, (s.setts.modify i f)[j]? = s.setts[j]? := by
    intro f
    rw [List.getElem?_modify]
    cases s.setts[j]? <;> simp [hij]
  rcases ho with rfl | rfl | rfl <;> unfold step <;> dsimp only <;> split <;> first | exact ⟨hm _, rfl⟩ | exact ⟨rfl, rfl⟩

/-! ### Values that are refused -/

/-- values that are not as documented are refused with a TypeError, the others are taken -/
def C126_values_statement : Prop :=
  ∀ (r t d : V), (Documented r t d → ∃ x, newSettings r t d = .ok x) ∧ (¬ Documented r t d → newSettings r t d = .error .type)

/-- it is false: a list of five numbers raises an IndexError (and `True` is taken as a radius) -/
theorem C126_values_violated : ¬ C126_values_statement := by
  intro h
  have := (h (.num 1) (.num 1) (.seq [.num 0, .num 0, .num 0, .num 1, .num 1])).2 (by
    rintro ⟨-, -, h | ⟨_, _, _, _, _, _, h, -⟩⟩
    · cases h
    · simp at h)
  exact absurd (congrArg (fun r : Except Exc Sett => match r with | .error e => some e | .ok _ => Option.none) this) (by decide +kernel)

/-- **C126**, proved part: documented values are taken. What is taken has numbers (`True` counts as 1) and None or exactly six numbers, minima below maxima; what is refused is refused with a
TypeError, unless the sequence is shorter than six. A statement that raises an exception changes nothing. Missing: `True` and `False` are taken as numbers, the exception for short sequences. -/
theorem C126_values_partial (r t d : V) :
    (Documented r t d → ∃ x, newSettings r t d = .ok x) ∧
    (∀ x, newSettings r t d = .ok x → r.number.isSome ∧ t.number = some x.tol ∧
      ((d = .none ∧ r.number = some x.radius) ∨
        ∃ v0 v1 v2 v3 v4 v5 x0 y0 z0 x1 y1 z1, d = .seq [v0, v1, v2, v3, v4, v5] ∧ [v0, v1, v2, v3, v4, v5].map V.number = [some x0, some y0, some z0, some x1, some y1, some z1] ∧
          x.dims = some [x0, y0, z0, x1, y1, z1] ∧ x0 < x1 ∧ y0 < y1 ∧ z0 < z1)) ∧
    (∀ e, newSettings r t d = .error e → e = .type ∨ ∃ l, d = .seq l ∧ l.length < 6) ∧
    (∀ (s : State) (o : Op) (e : Exc), (step s o).2 = some e → (step s o).1 = s) := by
  have elems : ∀ (l : List V) (qs : List ℚ), checkElems l = .ok qs → l.map V.number = qs.map some := by
    intro l
    induction l with
    | nil => intro qs h; cases h; rfl
    | cons v vs ih =>
      intro qs h
      unfold checkElems at h
      cases hv : v.number with
      | none => rw [hv] at h; cases h
      | some q =>
        rw [hv] at h
        cases hr : checkElems vs with
        | error e => rw [hr] at h; cases h
        | ok qs' =>
          rw [hr] at h
          cases h
          simp [hv, ih qs' hr]
  have elemsE : ∀ (l : List V) (e : Exc), checkElems l = .error e → e = .type := by
    intro l
    induction l with
    | nil => intro e h; cases h
    | cons v vs ih =>
      intro e h
      unfold checkElems at h
      cases hv : v.number with
      | none => rw [hv] at h; cases h; rfl
      | some q =>
        rw [hv] at h
        cases hr : checkElems vs with
        | error e' => rw [hr] at h; cases h; exact ih _ hr
        | ok qs' => rw [hr] at h; cases h
  have axis : ∀ (qs : List ℚ) (i : Nat) u, checkAxis qs i = .ok u → ∃ a b, qs[i]? = some a ∧ qs[i + 3]? = some b ∧ a < b := by
    intro qs i u h
    unfold checkAxis at h
    split at h
    · next a b h1 h2 =>
      split at h
      · cases h
      · next hn => exact ⟨a, b, h1, h2, not_le.1 hn⟩
    · cases h
  have axisE : ∀ (qs : List ℚ) (i : Nat) e, i < 3 → checkAxis qs i = .error e → e = .type ∨ qs.length < 6 := by
    intro qs i e hi h
    unfold checkAxis at h
    split at h
    · split at h
      · cases h; exact .inl rfl
      · cases h
    · next hn =>
      right
      by_contra hl
      have h1 : i < qs.length := by omega
      have h2 : i + 3 < qs.length := by omega
      exact hn _ _ (List.getElem?_eq_getElem h1) (List.getElem?_eq_getElem h2)
  have len : ∀ (l : List V) (qs : List ℚ), checkElems l = .ok qs → l.length = qs.length := by
    intro l qs h
    have := congrArg List.length (elems l qs h)
    simpa using this
  refine ⟨?_, ?_, ?_, ?_⟩
  · rintro ⟨⟨q, rfl⟩, ⟨q', rfl⟩, rfl | ⟨x0, y0, z0, x1, y1, z1, rfl, h1, h2, h3⟩⟩
    · exact ⟨_, rfl⟩
    · refine ⟨⟨max |x0| (max |y0| (max |z0| (max |x1| (max |y1| |z1|)))), q', some [x0, y0, z0, x1, y1, z1], boxOf ⟨x0, y0, z0, x1, y1, z1⟩⟩, ?_⟩
      simp only [newSettings, checkNumber, V.number, checkDims, checkElems, checkAxis]
      simp only [List.getElem?_cons_zero, List.getElem?_cons_succ, ge_iff_le, not_le.2 h1, not_le.2 h2, not_le.2 h3, if_false, setUniverseBox, Nat.zero_add]
  · intro x h
    unfold newSettings checkNumber at h
    cases hr : r.number with
    | none => rw [hr] at h; cases h
    | some rq =>
      cases ht : t.number with
      | none => rw [hr, ht] at h; cases h
      | some tq =>
        rw [hr, ht] at h
        refine ⟨rfl, ?_⟩
        cases d with
        | none =>
          cases h
          exact ⟨rfl, .inl ⟨rfl, rfl⟩⟩
        | bool b => cases h
        | num q => cases h
        | other => cases h
        | seq l =>
          simp only [checkDims] at h
          cases he : checkElems l with
          | error e => rw [he] at h; cases h
          | ok qs =>
            rw [he] at h
            simp only at h
            cases h0 : checkAxis qs 0 with
            | error e => rw [h0] at h; cases h
            | ok u0 =>
              cases h1 : checkAxis qs 1 with
              | error e => rw [h0, h1] at h; cases h
              | ok u1 =>
                cases h2 : checkAxis qs 2 with
                | error e => rw [h0, h1, h2] at h; cases h
                | ok u2 =>
                  rw [h0, h1, h2] at h
                  simp only [setUniverseBox] at h
                  obtain ⟨a0, b0, p0, q0, l0⟩ := axis _ _ _ h0
                  obtain ⟨a1, b1, p1, q1, l1⟩ := axis _ _ _ h1
                  obtain ⟨a2, b2, p2, q2, l2⟩ := axis _ _ _ h2
                  have hm := elems l qs he
                  have hl := len l qs he
                  split at h
                  · next a b c d e f =>
                    cases h
                    refine ⟨rfl, .inr ?_⟩
                    simp only [List.length_cons, List.length_nil] at hl
                    match l, hl with
                    | [v0, v1, v2, v3, v4, v5], _ =>
                      simp at p0 q0 p1 q1 p2 q2
                      subst p0 q0 p1 q1 p2 q2
                      exact ⟨v0, v1, v2, v3, v4, v5, _, _, _, _, _, _, rfl, by simpa using hm, rfl, l0, l1, l2⟩
                  · cases h
  · intro e h
    unfold newSettings checkNumber at h
    cases hr : r.number with
    | none => rw [hr] at h; cases h; exact .inl rfl
    | some rq =>
      cases ht : t.number with
      | none => rw [hr, ht] at h; cases h; exact .inl rfl
      | some tq =>
        rw [hr, ht] at h
        cases d with
        | none => cases h
        | bool b => cases h; exact .inl rfl
        | num q => cases h; exact .inl rfl
        | other => cases h; exact .inl rfl
        | seq l =>
          simp only [checkDims] at h
          cases he : checkElems l with
          | error e' => rw [he] at h; cases h; exact .inl (elemsE l _ he)
          | ok qs =>
            have hl := len l qs he
            have fin : e = .type ∨ qs.length < 6 → e = .type ∨ ∃ l', V.seq l = .seq l' ∧ l'.length < 6 := by
              rintro (h | h)
              · exact .inl h
              · exact .inr ⟨l, rfl, by omega⟩
            rw [he] at h
            simp only at h
            cases h0 : checkAxis qs 0 with
            | error e => rw [h0] at h; cases h; exact fin (axisE _ _ _ (by omega) h0)
            | ok u0 =>
              cases h1 : checkAxis qs 1 with
              | error e => rw [h0, h1] at h; cases h; exact fin (axisE _ _ _ (by omega) h1)
              | ok u1 =>
                cases h2 : checkAxis qs 2 with
                | error e => rw [h0, h1, h2] at h; cases h; exact fin (axisE _ _ _ (by omega) h2)
                | ok u2 =>
                  rw [h0, h1, h2] at h
                  simp only [setUniverseBox] at h
                  split at h
                  · cases h
                  · cases h; exact .inl rfl
  · intro s o e h
    cases o <;> unfold step at h ⊢ <;> dsimp only at h ⊢ <;> split at h <;> simp_all

/-- Non-vacuity: documented values, and two that are refused. -/
example : Documented (.num 1000) (.num 1) (.seq [.num 0, .num 0, .num 0, .num 10, .num 20, .num 30]) ∧
    (newSettings (.num 1000) (.num 1) (.seq [.num 5, .num 0, .num 0, .num 5, .num 20, .num 30])).toOption = Option.none ∧ (newSettings .other (.num 1) .none).toOption = Option.none :=
  ⟨⟨⟨_, rfl⟩, ⟨_, rfl⟩, .inr ⟨0, 0, 0, 10, 20, 30, rfl, by norm_num, by norm_num, by norm_num⟩⟩, by decide +kernel, by decide +kernel⟩

end Geouned.RCore
