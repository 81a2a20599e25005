import Verif.Nest.Spec
import Verif.BB.Lemmas7
/-!
# Lemmas: what `add` and `mult` do to what is said about a region
-/
namespace Geouned.Nest
open Geouned Geouned.Rev.Solid Geouned.BB

variable {F : Type} [Field F] [LinearOrder F] [IsStrictOrderedRing F]

/-- `BoxSays` with a slack `d` of the box -/
def SaysNear (d : F) (out : Box F) (R : Pt F → Prop) (m : MBox (Box F)) : Prop :=
  match m.ori, m.box with
  | .fwd, none => ∀ x, out.Mem x → ¬ R x
  | .fwd, some b => ∀ x, out.Mem x → R x → b.Near d x
  | .rev, none => ∀ x, out.Mem x → R x
  | .rev, some b => ∀ x, out.Mem x → ¬ R x → b.Near d x

theorem says_congr {d : F} {out : Box F} {R S : Pt F → Prop} {m : MBox (Box F)} (h : ∀ x, out.Mem x → (S x ↔ R x)) (hm : SaysNear d out R m) : SaysNear d out S m := by
  obtain ⟨m, o⟩ := m
  cases o <;> cases m
  · exact fun x hx hs => hm x hx ((h x hx).1 hs)
  · exact fun x hx hs => hm x hx ((h x hx).1 hs)
  · exact fun x hx => (h x hx).2 (hm x hx)
  · exact fun x hx hs => hm x hx (fun k => hs ((h x hx).2 k))

theorem hull_left {a : Box F} {d : F} {p : Pt F} (b : Box F) (h : a.Near d p) : (hull a b).Near d p := by
  obtain ⟨⟨h1, h2⟩, ⟨h3, h4⟩, h5, h6⟩ := h
  have := min_le_left a.xmin b.xmin; have := le_max_left a.xmax b.xmax
  have := min_le_left a.ymin b.ymin; have := le_max_left a.ymax b.ymax
  have := min_le_left a.zmin b.zmin; have := le_max_left a.zmax b.zmax
  refine ⟨⟨?_, ?_⟩, ⟨?_, ?_⟩, ?_, ?_⟩ <;> dsimp only [hull] <;> linarith

theorem hull_right {b : Box F} {d : F} {p : Pt F} (a : Box F) (h : b.Near d p) : (hull a b).Near d p := by
  obtain ⟨⟨h1, h2⟩, ⟨h3, h4⟩, h5, h6⟩ := h
  have := min_le_right a.xmin b.xmin; have := le_max_right a.xmax b.xmax
  have := min_le_right a.ymin b.ymin; have := le_max_right a.ymax b.ymax
  have := min_le_right a.zmin b.zmin; have := le_max_right a.zmax b.zmax
  refine ⟨⟨?_, ?_⟩, ⟨?_, ?_⟩, ?_, ?_⟩ <;> dsimp only [hull] <;> linarith

theorem inter_near {a b : Box F} {d : F} {p : Pt F} (ha : a.Near d p) (hb : b.Near d p) : (inter a b).Near d p := by
  obtain ⟨⟨h1, h2⟩, ⟨h3, h4⟩, h5, h6⟩ := ha
  obtain ⟨⟨k1, k2⟩, ⟨k3, k4⟩, k5, k6⟩ := hb
  refine ⟨⟨?_, ?_⟩, ⟨?_, ?_⟩, ?_, ?_⟩ <;> dsimp only [inter]
  · rw [sub_le_iff_le_add]; exact max_le (by linarith) (by linarith)
  · rw [← sub_le_iff_le_add]; exact le_min (by linarith) (by linarith)
  · rw [sub_le_iff_le_add]; exact max_le (by linarith) (by linarith)
  · rw [← sub_le_iff_le_add]; exact le_min (by linarith) (by linarith)
  · rw [sub_le_iff_le_add]; exact max_le (by linarith) (by linarith)
  · rw [← sub_le_iff_le_add]; exact le_min (by linarith) (by linarith)

/-- a box that nearly holds a wide set is valid -/
theorem valid_of_wide {b : Box F} {Q : Pt F → Prop} (hw : Wide Q) (h : ∀ x, Q x → b.Near (3 / 10) x) : valid b = true := by
  obtain ⟨⟨ax, bx, hax, hbx, hx⟩, ⟨ay, bY, hay, hby, hy⟩, az, bz, haz, hbz, hz⟩ := hw
  rw [valid, decide_eq_true_iff]
  refine ⟨?_, ?_, ?_⟩
  · have := (h ax hax).1.1; have := (h bx hbx).1.2; linarith
  · have := (h ay hay).2.1.1; have := (h bY hby).2.1.2; linarith
  · have := (h az haz).2.2.1; have := (h bz hbz).2.2.2; linarith

theorem add_says {d : F} {out : Box F} {R S : Pt F → Prop} {a b : MBox (Box F)} (ha : SaysNear d out R a) (hb : SaysNear d out S b) :
    SaysNear d out (fun x => R x ∨ S x) (add a b) := by
  obtain ⟨a, oa⟩ := a
  obtain ⟨b, ob⟩ := b
  cases a with
  | none =>
    cases oa
    · simp only [add, if_true]
      have e : ∀ x, out.Mem x → ((R x ∨ S x) ↔ S x) := fun x hx => by simpa using fun h => absurd h (ha x hx)
      exact says_congr e hb
    · exact fun x hx => .inl (ha x hx)
  | some a =>
    cases b with
    | none =>
      cases ob
      · simp only [add]
        have e : ∀ x, out.Mem x → ((R x ∨ S x) ↔ R x) := fun x hx => by simpa using fun h => absurd h (hb x hx)
        exact says_congr e ha
      · exact fun x hx => .inr (hb x hx)
    | some b =>
      cases oa <;> cases ob
      · rintro x hx (h | h)
        · exact hull_left b (ha x hx h)
        · exact hull_right a (hb x hx h)
      · exact fun x hx h => hull_right a (hb x hx (fun k => h (.inr k)))
      · exact fun x hx h => hull_left b (ha x hx (fun k => h (.inl k)))
      · exact fun x hx h => hull_left b (ha x hx (fun k => h (.inl k)))

/-- `W`: a wide subset of the intersection, or nothing -/
theorem mult_says {out : Box F} {R S : Pt F → Prop} {a b : MBox (Box F)} (ha : SaysNear (3 / 10) out R a) (hb : SaysNear (3 / 10) out S b)
    (hw : Wide fun x => out.Mem x ∧ R x ∧ S x) : SaysNear (3 / 10) out (fun x => R x ∧ S x) (mult a b) := by
  obtain ⟨a, oa⟩ := a
  obtain ⟨b, ob⟩ := b
  cases a with
  | none =>
    cases oa
    · exact fun x hx h => ha x hx h.1
    · simp only [mult, if_true]
      have e : ∀ x, out.Mem x → ((R x ∧ S x) ↔ S x) := fun x hx => by simpa using fun _ => ha x hx
      exact says_congr e hb
  | some a =>
    cases b with
    | none =>
      cases ob
      · exact fun x hx h => hb x hx h.2
      · simp only [mult]
        have e : ∀ x, out.Mem x → ((R x ∧ S x) ↔ R x) := fun x hx => by simpa using fun _ => hb x hx
        exact says_congr e ha
    | some b =>
      cases oa <;> cases ob
      · have hv : valid (inter a b) = true := valid_of_wide hw fun x hx => inter_near (ha x hx.1 hx.2.1) (hb x hx.1 hx.2.2)
        simp only [mult, hv]
        exact fun x hx h => inter_near (ha x hx h.1) (hb x hx h.2)
      · exact fun x hx h => hull_left b (ha x hx h.1)
      · exact fun x hx h => hull_right a (hb x hx h.2)
      · intro x hx h
        by_cases h1 : R x
        · exact hull_right a (hb x hx (fun h2 => h ⟨h1, h2⟩))
        · exact hull_left b (ha x hx h1)

theorem Wide.mono {R S : Pt F → Prop} (h : Wide R) (hs : ∀ x, R x → S x) : Wide S := by
  obtain ⟨⟨a, b, ha, hb, hx⟩, ⟨c, d, hc, hd, hy⟩, e, f, he, hf, hz⟩ := h
  exact ⟨⟨a, b, hs _ ha, hs _ hb, hx⟩, ⟨c, d, hs _ hc, hs _ hd, hy⟩, e, f, hs _ he, hs _ hf, hz⟩

theorem loopOr_says {d : F} {out : Box F} {l : List (MBox (Box F))} {Rs : List (Pt F → Prop)} (hl : List.Forall₂ (fun b R => SaysNear d out R b) l Rs)
    {a : MBox (Box F)} {R : Pt F → Prop} (ha : SaysNear d out R a) : SaysNear d out (fun p => R p ∨ ∃ S ∈ Rs, S p) (loopOr a l) := by
  induction hl generalizing a R with
  | nil => simpa [loopOr] using ha
  | @cons b S l Rs hb _ ih =>
    have h1 := add_says ha hb
    unfold loopOr
    dsimp only
    split
    · rename_i hc
      obtain ⟨hn, ho⟩ := hc
      generalize add a b = m at *
      obtain ⟨m, o⟩ := m
      dsimp only at hn ho
      subst ho
      cases m with
      | some => simp at hn
      | none =>
        intro x hx
        rcases h1 x hx with h | h
        · exact .inl h
        · exact .inr ⟨S, by simp, h⟩
    · have := ih h1
      simpa [or_assoc] using this

/-- the case of an intersection that is not empty -/
theorem loopAnd_wide {out : Box F} {l : List (MBox (Box F))} {Rs : List (Pt F → Prop)} (hl : List.Forall₂ (fun b R => SaysNear (3 / 10) out R b) l Rs)
    {a : MBox (Box F)} {R : Pt F → Prop} (ha : SaysNear (3 / 10) out R a) (hw : Wide fun x => out.Mem x ∧ R x ∧ ∀ S ∈ Rs, S x) :
    SaysNear (3 / 10) out (fun p => R p ∧ ∀ S ∈ Rs, S p) (loopAnd a l) := by
  induction hl generalizing a R with
  | nil => simpa [loopAnd] using ha
  | @cons b S l Rs hb _ ih =>
    have h1 := mult_says ha hb (Wide.mono hw fun x hx => ⟨hx.1, hx.2.1, hx.2.2 S (by simp)⟩)
    unfold loopAnd
    dsimp only
    split
    · rename_i hc
      obtain ⟨hn, ho⟩ := hc
      generalize mult a b = m at *
      obtain ⟨m, o⟩ := m
      dsimp only at hn ho
      subst ho
      cases m with
      | some => simp at hn
      | none => exact fun x hx h => h1 x hx ⟨h.1, h.2 S (by simp)⟩
    · have := ih h1 (Wide.mono hw fun x hx => ⟨hx.1, ⟨hx.2.1, hx.2.2 S (by simp)⟩, fun T hT => hx.2.2 T (by simp [hT])⟩)
      simpa [and_assoc] using this

/-- the case of an empty intersection: either the loop runs through, or it is left with "nothing remains" -/
theorem loopAnd_empty {out : Box F} {l : List (MBox (Box F))} {Rs : List (Pt F → Prop)} (hl : List.Forall₂ (fun b R => SaysNear (3 / 10) out R b) l Rs)
    {a : MBox (Box F)} {R : Pt F → Prop} (ha : SaysNear (3 / 10) out R a) (he : ∀ x, out.Mem x → R x → ¬ ∀ S ∈ Rs, S x) :
    SaysNear (3 / 10) out (fun p => R p ∧ ∀ S ∈ Rs, S p) (loopAnd a l) := by
  -- a prefix of the list may have a box that is wrong only in that it says "empty"; then the loop ends
  induction hl generalizing a R with
  | nil => simpa [loopAnd] using ha
  | @cons b S l Rs hb _ ih =>
    unfold loopAnd
    dsimp only
    split
    · rename_i hc
      obtain ⟨hn, ho⟩ := hc
      generalize mult a b = m at *
      obtain ⟨m, o⟩ := m
      dsimp only at hn ho
      subst ho
      cases m with
      | some => simp at hn
      | none => exact fun x hx h => he x hx h.1 h.2
    · rename_i hc
      have h1 : SaysNear (3 / 10) out (fun x => R x ∧ S x) (mult a b) := by
        clear ih he
        obtain ⟨a, oa⟩ := a
        obtain ⟨b, ob⟩ := b
        cases a with
        | none =>
          cases oa
          · exact fun x hx h => ha x hx h.1
          · simp only [mult, if_true]
            have e : ∀ x, out.Mem x → ((R x ∧ S x) ↔ S x) := fun x hx => by simpa using fun _ => ha x hx
            exact says_congr e hb
        | some a =>
          cases b with
          | none =>
            cases ob
            · exact fun x hx h => hb x hx h.2
            · simp only [mult]
              have e : ∀ x, out.Mem x → ((R x ∧ S x) ↔ R x) := fun x hx => by simpa using fun _ => hb x hx
              exact says_congr e ha
          | some b =>
            cases oa <;> cases ob
            · by_cases hv : valid (inter a b) = true
              · simp only [mult, hv]
                exact fun x hx h => inter_near (ha x hx h.1) (hb x hx h.2)
              · exact absurd (by simp [mult, hv]) hc
            · exact fun x hx h => hull_left b (ha x hx h.1)
            · exact fun x hx h => hull_right a (hb x hx h.2)
            · intro x hx h
              by_cases h1 : R x
              · exact hull_right a (hb x hx (fun h2 => h ⟨h1, h2⟩))
              · exact hull_left b (ha x hx h1)
      have := ih h1 (fun x hx h k => he x hx h.1 (by simpa using ⟨h.2, k⟩))
      simpa [and_assoc] using this

/-! ### definitions of level 0 -/

theorem leaf_fits {g : Ctx F} {d : Seq} (h : Fits (g.comp d)) : ∃ m, leaf g d = .ok m ∧ SaysNear (3 / 10) g.out (Region g.planes d) m := by
  have ok : ∀ m, component (g.comp d) = some m → leaf g d = .ok m := fun m hm => by rw [leaf, hm]
  cases h with
  | inside lits h hin hw hfar =>
    obtain ⟨b, hb, hall⟩ := intersection_near _ lits h hin hw hfar
    refine ⟨_, ok _ hb, fun x _ hx => hall x ?_⟩
    have e : d = _ := h.definition
    rw [e] at hx
    exact region_and_allOf hx
  | cut lits h hw hfar hnear hedge =>
    obtain ⟨b, hb, hall⟩ := intersection_cut_near _ lits h hw hfar hnear hedge
    refine ⟨_, ok _ hb, fun x hm hx => hall x ?_ hm⟩
    have e : d = _ := h.definition
    rw [e] at hx
    exact region_and_allOf hx
  | union lits h hw hfar hnear =>
    obtain ⟨b, hb, hall⟩ := union_near _ lits h hw hfar hnear
    refine ⟨_, ok _ hb, fun x hm hx => hall x ?_ hm⟩
    have e : d = _ := h.definition
    rw [e] at hx
    exact region_or_oneOf hx
  | outside lits h hin hw hnear =>
    obtain ⟨b, hb, hall⟩ := outside_near _ lits h hin hw hnear
    refine ⟨_, ok _ hb, fun x _ hx => hall x ?_⟩
    have e : d = _ := h.definition
    rw [e] at hx
    exact not_region_or hx
  | everywhere lits h hu hin =>
    obtain ⟨b, hb, hall⟩ := everywhere_near _ lits h hu hin
    refine ⟨_, ok _ hb, ?_⟩
    cases b
    · exact hall
    · exact fun x hx hn => absurd (hall x hx) hn
  | nowhere lits h hu hin =>
    obtain ⟨b, hb, hall⟩ := nowhere_near _ lits h hu hin
    refine ⟨_, ok _ hb, ?_⟩
    cases b
    · exact hall
    · exact fun x hx hn => absurd hn (hall x hx)

/-- no point is inside: no limits are found -/
theorem phases_nothing {ins : Pt F → Bool} (hi : ∀ p, ins p = false) : ∀ (as : List Axis) (l : List (Pt F)) (lims : List F), phases ins as l = some lims → lims = []
  | [], _, _, h => by simp only [phases, Option.some.injEq] at h; exact h.symm
  | a :: as, l, lims, h => by
    have hf : ∀ l : List (Pt F), l.find? ins = none := fun l => by simp [hi]
    unfold phases at h
    split at h
    · exact absurd h (by simp)
    · rename_i lm pts' hp
      have e : lm = [] := by
        unfold phase at hp
        split at hp
        · exact absurd hp (by simp)
        · dsimp only at hp
          split at hp
          · exact absurd hp (by simp)
          · simp only [hf, Option.map_none, Option.toList_none, List.append_nil, Option.some.injEq, Prod.mk.injEq] at hp
            exact hp.1.symm
      split at h
      · exact absurd h (by simp)
      · rename_i ls hls
        have := phases_nothing hi as _ _ hls
        simp only [Option.some.injEq] at h
        rw [← h, e, this]; rfl

theorem attempt_nothing {c : Comp F} {fwd cut : Bool} (hi : ∀ p, isInside c p fwd = false) : attempt c fwd cut = .fail := by
  have ht := attempt_total c fwd cut
  unfold attempt at ht ⊢
  dsimp only at ht ⊢
  split
  · rfl
  · rename_i h6
    rw [if_neg h6] at ht
    cases hp : phases (fun p => isInside c p fwd) [.x, .y, .z] (planeIntersect c.out (c.nums.map c.planes) cut) with
    | none => rw [hp] at ht; exact absurd rfl ht
    | some lims => rw [phases_nothing hi _ _ _ hp]; rfl

theorem component_boo {c : Comp F} {op : Op} {l : Int} {v : Bool} (hd : c.definition = .boo op l v) :
    component c = some ⟨none, if v then .rev else .fwd⟩ := by
  have hin : ∀ p bi, isInside c p bi = (if bi then v else !v) := fun p bi => by
    unfold isInside
    rw [hd]
    simp only [evaluate]
  cases v with
  | true =>
    have ho : orientation c = .rev := orientation_rev fun k _ => hin k true
    have ha : ∀ cut, attempt c false cut = .fail := fun cut => attempt_nothing fun p => hin p false
    unfold component componentCut
    simp [ho, boxOri, ha]
  | false =>
    have ho : orientation c = .fwd := orientation_fwd fun k _ => hin k true
    have ha : ∀ cut, attempt c true cut = .fail := fun cut => attempt_nothing fun p => hin p true
    unfold component componentCut
    simp [ho, boxOri, ha]

theorem build_boo (g : Ctx F) (op : Op) (l : Int) (v : Bool) : build g (.boo op l v) = .ok ⟨none, if v then .rev else .fwd⟩ := by
  unfold build
  split
  · rw [leaf, component_boo (c := g.comp (.boo op l v)) rfl]
  · cases v <;> rfl

/-! ### the walk -/

theorem region_lst_and {pl : Nat → Plane F} {l : Int} {es : List Seq} {x : Pt F} :
    Region pl (.lst .and l es) x ↔ ∀ R ∈ es.map (Region pl), R x := by
  unfold Region
  simp only [Seq.sem]
  induction es with
  | nil => simp [Seq.semAll]
  | cons e es ih => simp only [Seq.semAll, Bool.and_eq_true, ih, List.map_cons, List.forall_mem_cons]

theorem region_lst_or {pl : Nat → Plane F} {l : Int} {es : List Seq} {x : Pt F} :
    Region pl (.lst .or l es) x ↔ ∃ R ∈ es.map (Region pl), R x := by
  unfold Region
  simp only [Seq.sem]
  induction es with
  | nil => simp [Seq.semAny]
  | cons e es ih => simp only [Seq.semAny, Bool.or_eq_true, ih, List.map_cons, List.exists_mem_cons_iff]

mutual
theorem build_fit {g : Ctx F} : ∀ (d : Seq), Fit g d → ∃ m, build g d = .ok m ∧ SaysNear (3 / 10) g.out (Region g.planes d) m
  | .int _, h => absurd h (by simp [Fit])
  | .boo op l v, _ => by
    refine ⟨_, build_boo g op l v, ?_⟩
    cases v
    · intro x _; simp [Region, Seq.sem]
    · intro x _; simp [Region, Seq.sem]
  | .lst op l es, h => by
    unfold Fit at h
    unfold build
    by_cases h0 : l = 0
    · rw [if_pos h0] at h ⊢
      exact leaf_fits h
    · rw [if_neg h0] at h ⊢
      obtain ⟨hne, hes, hw⟩ := h
      obtain ⟨bs, hb, hf⟩ := buildL_fit es hes
      match es, bs, hf with
      | [], _, _ => exact absurd rfl hne
      | e :: es, b :: bs, .cons h1 h2 =>
        rw [hb]
        refine ⟨_, rfl, ?_⟩
        cases op with
        | or =>
          have := loopOr_says h2 h1
          have e' : (fun p => Region g.planes e p ∨ ∃ S ∈ es.map (Region g.planes), S p) = Region g.planes (.lst .or l (e :: es)) := by
            funext p; rw [region_lst_or]; simp
          rw [e'] at this
          exact this
        | and =>
          have e' : (fun p => Region g.planes e p ∧ ∀ S ∈ es.map (Region g.planes), S p) = Region g.planes (.lst .and l (e :: es)) := by
            funext p; rw [region_lst_and]; simp
          rw [← e']
          rcases hw rfl with hw | hw
          · refine loopAnd_empty h2 h1 fun x hx h k => hw x ⟨hx, ?_⟩
            rw [← e']; exact ⟨h, k⟩
          · exact loopAnd_wide h2 h1 (Wide.mono hw fun x hx => ⟨hx.1, by have := hx.2; rw [← e'] at this; exact this⟩)
theorem buildL_fit {g : Ctx F} : ∀ (es : List Seq), FitL g es →
    ∃ bs, buildL g es = .ok bs ∧ List.Forall₂ (fun b R => SaysNear (3 / 10) g.out R b) bs (es.map (Region g.planes))
  | [], _ => ⟨[], rfl, .nil⟩
  | e :: es, h => by
    unfold FitL at h
    obtain ⟨b, hb, h1⟩ := build_fit e h.1
    obtain ⟨bs, hbs, h2⟩ := buildL_fit es h.2
    exact ⟨b :: bs, by simp [buildL, hb, hbs], .cons h1 h2⟩
end

mutual
theorem build_shaped {g : Ctx F} : ∀ (d : Seq), Shaped d → ∃ m, build g d = .ok m
  | .int _, h => absurd h (by simp [Shaped])
  | .boo op l v, _ => ⟨_, build_boo g op l v⟩
  | .lst op l es, h => by
    unfold Shaped at h
    unfold build
    by_cases h0 : l = 0
    · rw [if_pos h0, leaf]
      obtain ⟨b, hb⟩ := component_total (g.comp (.lst op l es))
      exact ⟨_, by rw [hb]⟩
    · rw [if_neg h0]
      obtain ⟨hne, hes⟩ := h.resolve_left h0
      obtain ⟨bs, hb, hl⟩ := buildL_shaped es hes
      rw [hb]
      match bs, hl with
      | [], hl => exact absurd (List.eq_nil_of_length_eq_zero hl.symm) hne
      | b :: bs, _ => exact ⟨_, rfl⟩
theorem buildL_shaped {g : Ctx F} : ∀ (es : List Seq), ShapedL es → ∃ bs, buildL g es = .ok bs ∧ bs.length = es.length
  | [], _ => ⟨[], rfl, rfl⟩
  | e :: es, h => by
    unfold ShapedL at h
    obtain ⟨b, hb⟩ := build_shaped (g := g) e h.1
    obtain ⟨bs, hbs, h2⟩ := buildL_shaped (g := g) es h.2
    exact ⟨b :: bs, by simp [buildL, hb, hbs], by simp [h2]⟩
end

end Geouned.Nest
