import Verif.Facet.Lemmas
/-!
# Lemmas on the faceted solids: edges, numbers, one solid, all solids
-/
namespace Geouned.Facet
open Geouned Geouned.BB

variable {F : Type} [Field F] [LinearOrder F] [IsStrictOrderedRing F]

/-! ## edges -/

theorem ev_shift (q : Plane F) (m w : Pt F) : q.ev ⟨m.x + w.x, m.y + w.y, m.z + w.z⟩ = q.ev m + dot q.nrm w := by
  simp only [Plane.ev, dot, sub]; ring

theorem isConvex_iff {f g : Face F} {e : Edge F} {w : Pt F} (hw : Into e g w) (hm : f.surf.ev e.mid = 0)
    (hn : f.surf.ev ⟨e.mid.x + w.x, e.mid.y + w.y, e.mid.z + w.z⟩ ≠ 0) (ho : f.orient.isSome = true) :
    isConvex f g e = true ↔ ConvexEdge false e f w := by
  have hax : (if g.inside ⟨e.mid.x + 1 / 10 * (cross e.dir g.surf.nrm).x, e.mid.y + 1 / 10 * (cross e.dir g.surf.nrm).y,
      e.mid.z + 1 / 10 * (cross e.dir g.surf.nrm).z⟩ then cross e.dir g.surf.nrm else neg (cross e.dir g.surf.nrm)) = w := by
    obtain ⟨h1, h2, h3⟩ := hw
    rcases h1 with rfl | rfl
    · rw [if_pos h2]
    · have e1 : ∀ a b : F, a - 1 / 10 * -b = a + 1 / 10 * b := fun a b => by ring
      simp only [e1] at h3
      rw [if_neg (by rw [h3]; decide)]
      rfl
  rw [ev_shift, hm, zero_add] at hn
  rw [isConvex]
  simp only [hax]
  rw [ConvexEdge, Face.Inner, ev_shift, hm, zero_add]
  obtain ⟨o, ho'⟩ := Option.isSome_iff_exists.1 ho
  simp only [Face.AxisOut, ho']
  by_cases hd : dot f.surf.nrm w < 0
  · cases o <;> simp [hd, le_of_lt hd]
  · have hp : 0 < dot f.surf.nrm w := lt_of_le_of_ne (not_lt.1 hd) (Ne.symm hn)
    cases o <;> simp [hd, hp]

theorem commonEdge_some {f g : Face F} {e : Edge F} (h : commonEdge f g = some e) : Shared f g e := by
  refine ⟨List.mem_of_find?_eq_some h, ?_⟩
  have := List.find?_some h
  simp only [List.any_eq_true, beq_iff_eq] at this
  exact this

theorem commonEdge_none {f g : Face F} (h : commonEdge f g = none) (e : Edge F) : ¬Shared f g e := by
  rintro ⟨h1, e', h2, h3⟩
  have := List.find?_eq_none.1 h e h1
  simp only [List.any_eq_true, beq_iff_eq, not_exists, not_and] at this
  exact this e' h2 h3

theorem used_some {s : Solid F} {f : Face F} (h : f ∈ s.used) : f.orient.isSome = true := by
  have := (List.mem_filter.1 h).2
  simp only [decide_eq_true_eq] at this
  exact this.2.2

theorem concave_iff {s : Solid F} {f g : Face F} (hr : Tidy s.inverted f g) (hi : s.inverted = false) (hf : f ∈ s.used) :
    concave f g = true ↔ Reentrant s.inverted f g := by
  rw [concave]
  cases h : commonEdge f g with
  | none =>
    simp only [Bool.false_eq_true, false_iff]
    rintro ⟨e, he, -⟩
    exact commonEdge_none h e he
  | some e =>
    have he := commonEdge_some h
    obtain ⟨hm, w, hw, hn⟩ := hr.1 e he
    have hc := isConvex_iff hw hm hn (used_some hf)
    simp only [Bool.not_eq_true', ← Bool.not_eq_true, hc]
    constructor
    · intro h'; exact ⟨e, he, w, hw, hi ▸ h'⟩
    · intro h'; exact hi ▸ hr.2 h' e he w hw

/-! ## the number of a face -/

theorem lit_neg (σ : Side) {n : Int} (h : n ≠ 0) : lit σ (-n) = !lit σ n := by
  unfold lit
  rcases lt_trichotomy n 0 with h' | h' | h'
  · rw [if_neg (by omega), if_pos h', Int.natAbs_neg]; simp
  · exact absurd h' h
  · rw [if_pos (by omega), if_neg (by omega), Int.natAbs_neg]

/-- the signed number of a face whose plane is in the registry -/
def idOf (C : Cad F) (inverted : Bool) (f : Face F) : Int :=
  match faceId C inverted f with
  | .ok n => n
  | .error _ => 0

theorem faceId_eq {C : Cad F} {inverted : Bool} {f : Face F} (h : Known C f) : faceId C inverted f = .ok (idOf C inverted f) := by
  obtain ⟨-, s, hs, -⟩ := h
  rw [idOf, faceId, hs]

theorem idOf_ne {C : Cad F} {inverted : Bool} {f : Face F} (h : Known C f) : idOf C inverted f ≠ 0 := by
  obtain ⟨h0, s, hs, -⟩ := h
  rw [idOf, faceId, hs]
  dsimp only
  split_ifs <;> simp [h0]

theorem idOf_natAbs {C : Cad F} {inverted : Bool} {f : Face F} (h : Known C f) : (idOf C inverted f).natAbs = C.getId f := by
  obtain ⟨h0, s, hs, -⟩ := h
  rw [idOf, faceId, hs]
  dsimp only
  split_ifs <;> simp

theorem lit_idOf {C : Cad F} {inverted : Bool} {f : Face F} (h : Known C f) (ho : f.orient.isSome = true) {p : Pt F} (hp : f.surf.ev p ≠ 0) :
    lit (side C p) (idOf C inverted f) = true ↔ f.Inner inverted p := by
  obtain ⟨h0, s, hs, he⟩ := h
  have hn : ((C.getId f : Nat) : Int) ≠ 0 := by exact_mod_cast h0
  have hσ : lit (side C p) (C.getId f : Int) = decide (0 < s.ev p) := by
    unfold lit
    rw [if_neg (by omega), Int.natAbs_natCast, side, hs]
  have hlt : (0 < f.surf.ev p) ↔ ¬(f.surf.ev p < 0) := ⟨fun h => not_lt.2 (le_of_lt h), fun h => lt_of_le_of_ne (not_lt.1 h) (Ne.symm hp)⟩
  have hstep : lit (side C p) (if C.opposite f.surf.nrm s.nrm then -(C.getId f : Int) else (C.getId f : Int)) = decide (0 < f.surf.ev p) := by
    by_cases hc : C.opposite f.surf.nrm s.nrm = true
    · rw [if_pos hc, lit_neg _ hn, hσ, he p, if_pos hc]
      by_cases h' : f.surf.ev p < 0
      · simp [h', le_of_lt h']
      · have h'' := hlt.2 h'
        simp [h', h'']
    · rw [if_neg hc, hσ, he p, if_neg hc]
  have hne : (if C.opposite f.surf.nrm s.nrm then -(C.getId f : Int) else (C.getId f : Int)) ≠ 0 := by split_ifs <;> simp [h0]
  rw [idOf, faceId, hs]
  dsimp only
  obtain ⟨o, ho'⟩ := Option.isSome_iff_exists.1 ho
  simp only [Face.Inner, Face.AxisOut, ho']
  generalize (if C.opposite f.surf.nrm s.nrm then -(C.getId f : Int) else (C.getId f : Int)) = k at hstep hne
  have hne' : -k ≠ 0 := by omega
  by_cases h' : f.surf.ev p < 0
  · have h'' : ¬(0 < f.surf.ev p) := fun h => hlt.1 h h'
    cases o <;> cases inverted <;> simp [lit_neg _ hne, lit_neg _ hne', hstep, h', h'']
  · have h'' := hlt.2 h'
    cases o <;> cases inverted <;> simp [lit_neg _ hne, lit_neg _ hne', hstep, h', h'']

theorem collect_eq {C : Cad F} {inverted : Bool} : ∀ (l : List (Face F)), (∀ f ∈ l, f.Counts → Known C f) →
    collect C inverted l = .ok ((l.filter fun f => decide f.Counts).map fun f => (idOf C inverted f, f)) := by
  intro l
  induction l with
  | nil => intro _; rfl
  | cons f l ih =>
    intro h
    have ih' := ih fun g hg => h g (by simp [hg])
    by_cases hc : f.Counts
    · have hk := h f (by simp) hc
      obtain ⟨h1, h2, h3⟩ := hc
      rw [collect, if_neg (not_lt.2 h1), if_neg (by simp [h2]), if_neg (by intro h; simp [h] at h3), faceId_eq hk,
        List.filter_cons_of_pos (by simpa using ⟨h1, h2, h3⟩), ih']
      rfl
    · rw [List.filter_cons_of_neg (by simpa using hc)]
      rw [collect]
      split
      · exact ih'
      · split
        · exact ih'
        · split
          · exact ih'
          · rename_i a b c
            exfalso
            refine hc ⟨not_lt.1 a, by simpa using b, ?_⟩
            cases ho : f.orient with
            | none => exact absurd ho c
            | some _ => rfl

/-! ## one solid -/

theorem groups_of {C : Cad F} {s : Solid F} {fs : List (Face F × Nat)} (hfs : fs.map Prod.fst = s.used) (hr : Regular s) (hi : s.inverted = false)
    (hk : ∀ f ∈ s.used, Known C f) (hl : LedByFirst s.inverted fs) (ho : OwnPlanes s.inverted fs) :
    Groups (fs.map fun f => (((idOf C s.inverted f.1, f.1), f.2) : Tagged F)) := by
  have hmem : ∀ f ∈ fs, f.1 ∈ s.used := fun f hf => hfs ▸ List.mem_map.2 ⟨f, hf, rfl⟩
  refine ⟨fun pre f post e hpre g hg => ?_, fun f hf hc => ?_, fun f hf => ?_⟩
  · obtain ⟨a, b, rfl, rfl, hb⟩ := List.map_eq_append_iff.1 e
    obtain ⟨f', post', rfl, rfl, rfl⟩ := List.map_eq_cons_iff.1 hb
    obtain ⟨g', hg', rfl⟩ := List.mem_map.1 hg
    dsimp only
    have ht : Tidy s.inverted f'.1 g'.1 := by
      rw [Regular, ← hfs, List.map_append, List.map_cons] at hr
      exact ((List.pairwise_cons.1 (List.pairwise_append.1 hr).2.1).1 g'.1 (List.mem_map.2 ⟨g', hg', rfl⟩)).1
    rw [concave_iff ht hi (hmem f' (by simp))]
    exact hl a f' post' rfl (fun h hh => hpre _ (List.mem_map.2 ⟨h, hh, rfl⟩)) g' hg'
  · obtain ⟨f', hf', rfl⟩ := List.mem_map.1 hf
    obtain ⟨a, b, rfl⟩ := List.append_of_mem hf'
    simp only [List.map_append, List.map_cons, List.countP_append, List.countP_map, Function.comp_def] at hc ⊢
    rw [List.countP_cons_of_pos (by simp)] at hc ⊢
    have hex : ∃ g ∈ a ++ b, g.2 = f'.2 := by
      by_contra hno
      push Not at hno
      have h1 : a.countP (fun x => x.2 == f'.2) = 0 := List.countP_eq_zero.2 fun x hx => by simpa using hno x (by simp [hx])
      have h2 : (b.map fun f => (((idOf C s.inverted f.1, f.1), f.2) : Tagged F)).countP (fun x => x.2 == f'.2) = 0 := List.countP_eq_zero.2 fun x hx => by
        obtain ⟨y, hy, rfl⟩ := List.mem_map.1 hx
        simpa using hno y (by simp [hy])
      simp only [List.countP_map, Function.comp_def] at hc h2
      omega
    have hne : ∀ g ∈ a ++ b, idOf C s.inverted g.1 ≠ idOf C s.inverted f'.1 := by
      intro g hg e
      obtain ⟨p, hp⟩ := ho a f' b rfl hex g hg
      apply hp
      -- same number: same plane, same side
      have kf := hk f'.1 (hmem f' (by simp))
      have kg := hk g.1 (hmem g (by rcases List.mem_append.1 hg with h | h <;> simp [h]))
      have of' := used_some (hmem f' (by simp))
      have og := used_some (hmem g (by rcases List.mem_append.1 hg with h | h <;> simp [h]))
      have hid : C.getId g.1 = C.getId f'.1 := by rw [← idOf_natAbs kf, ← idOf_natAbs kg, e]
      have hz : f'.1.surf.ev p = 0 ↔ g.1.surf.ev p = 0 := by
        obtain ⟨-, q, hq, he⟩ := kf
        obtain ⟨-, q', hq', he'⟩ := kg
        rw [hid, hq] at hq'
        cases hq'
        have h1 := he p
        have h2 := he' p
        have hz : ∀ (c : Bool) (x : F), (if c = true then -x else x) = 0 ↔ x = 0 := by intro c x; cases c <;> simp
        rw [← hz (C.opposite f'.1.surf.nrm q.nrm), ← h1, h2, hz]
      by_cases hp0 : f'.1.surf.ev p = 0
      · have hg0 := hz.1 hp0
        simp [Face.Inner, hp0, hg0]
      · have hg0 : g.1.surf.ev p ≠ 0 := fun h => hp0 (hz.2 h)
        rw [← lit_idOf kf of' hp0, ← lit_idOf kg og hg0, e]
    have h1 : a.countP (fun x => idOf C s.inverted x.1 == idOf C s.inverted f'.1) = 0 :=
      List.countP_eq_zero.2 fun x hx => by simpa using hne x (by simp [hx])
    have h2 : (b.map fun f => (((idOf C s.inverted f.1, f.1), f.2) : Tagged F)).countP (fun x => x.1.1 == idOf C s.inverted f'.1) = 0 :=
      List.countP_eq_zero.2 fun x hx => by
        obtain ⟨y, hy, rfl⟩ := List.mem_map.1 hx
        simpa using hne y (by simp [hy])
    simp only [List.countP_map, Function.comp_def] at h2 ⊢
    omega
  · obtain ⟨f', hf', rfl⟩ := List.mem_map.1 hf
    exact idOf_ne (hk _ (hmem f' hf'))

theorem solidDef_sem {C : Cad F} {s : Solid F} {R : Pt F → Prop} {fs : List (Face F × Nat)} (hL : Layout s R fs) (hr : Regular s)
    (hi : s.inverted = false) (hk : ∀ f ∈ s.used, Known C f) (hl : LedByFirst s.inverted fs) (ho : OwnPlanes s.inverted fs) :
    ∃ d, solidDef C s = .ok d ∧ d.WF ∧ ∀ p, Off s p → (d.sem (side C p) = true ↔ R p) := by
  have hg := groups_of (C := C) hL.faces hr hi hk hl ho
  have hcol : collect C s.inverted s.faces = .ok ((fs.map fun f => (((idOf C s.inverted f.1, f.1), f.2) : Tagged F)).map Prod.fst) := by
    rw [collect_eq s.faces fun f hf hc => hk f (List.mem_filter.2 ⟨hf, by simpa using hc⟩)]
    show Except.ok (List.map _ s.used) = _
    rw [← hL.faces, List.map_map, List.map_map]
    rfl
  obtain ⟨d, h1, h2, h3⟩ := faceLoop_sem _ (.lst .and 0 []) _ le_rfl ⟨by simp [Seq.WF, Seq.WFL], .inl ⟨0, [], rfl⟩⟩ hg
  refine ⟨d, ?_, h2.1, fun p hp => ?_⟩
  · rw [solidDef, hcol]
    simp only [bind, Except.bind, List.length_map] at h1 ⊢
    exact h1
  · have hmem : ∀ f ∈ fs, f.1 ∈ s.used := fun f hf => hL.faces ▸ List.mem_map.2 ⟨f, hf, rfl⟩
    rw [h3, hL.region p hp]
    constructor
    · rintro ⟨-, h⟩ f hf
      obtain ⟨g, hg', e, hl'⟩ := h _ (List.mem_map.2 ⟨f, hf, rfl⟩)
      obtain ⟨g, hg2, rfl⟩ := List.mem_map.1 hg'
      exact ⟨g, hg2, e, (lit_idOf (hk _ (hmem g hg2)) (used_some (hmem g hg2)) (hp _ (List.mem_filter.1 (hmem g hg2)).1)).1 hl'⟩
    · intro h
      refine ⟨by simp [Seq.sem, Seq.semAll], fun f hf => ?_⟩
      obtain ⟨f, hf2, rfl⟩ := List.mem_map.1 hf
      obtain ⟨g, hg', e, hl'⟩ := h f hf2
      exact ⟨_, List.mem_map.2 ⟨g, hg', rfl⟩, e, (lit_idOf (hk _ (hmem g hg')) (used_some (hmem g hg')) (hp _ (List.mem_filter.1 (hmem g hg')).1)).2 hl'⟩

/-! ## all solids -/

/-- a union in the making -/
def OrOk (s : Seq) : Prop := s.WF ∧ ((∃ l es, s = .lst .or l es) ∨ ∃ l, s = .boo .or l true)

theorem append_or {s : Seq} (hs : OrOk s) {x : Seq} (hx : x.WF) :
    ∃ s', s.append [.seq x] = .ok s' ∧ OrOk s' ∧ ∀ σ, s'.sem σ = true ↔ (s.sem σ = true ∨ x.sem σ = true) := by
  obtain ⟨hw, ⟨l, es, rfl⟩ | ⟨l, rfl⟩⟩ := hs
  · obtain ⟨s', h1, h2, h3⟩ := C01_append_or l es [.seq x] hw (by simpa [Item.WF] using hx)
    refine ⟨s', h1, ⟨h2, appendLoop_kind _ _ _ _ h1⟩, fun σ => ?_⟩
    rw [h3]
    simp only [List.mem_singleton, exists_eq_left]
    rfl
  · exact ⟨_, rfl, ⟨hw, .inr ⟨_, rfl⟩⟩, fun σ => by simp [Seq.sem]⟩

theorem solidsLoop_sem {C : Cad F} : ∀ (ss : List (Solid F × (Pt F → Prop))) (d : Seq), OrOk d →
    (∀ s ∈ ss, ∃ x, solidDef C s.1 = .ok x ∧ x.WF ∧ ∀ p, Off s.1 p → (x.sem (side C p) = true ↔ s.2 p)) →
    ∃ d', solidsLoop C d (ss.map Prod.fst) = .ok d' ∧ OrOk d' ∧
      ∀ p, (∀ s ∈ ss, Off s.1 p) → (d'.sem (side C p) = true ↔ (d.sem (side C p) = true ∨ ∃ s ∈ ss, s.2 p)) := by
  intro ss
  induction ss with
  | nil => intro d hd _; exact ⟨d, rfl, hd, fun p _ => by simp⟩
  | cons s ss ih =>
    intro d hd h
    obtain ⟨x, x1, x2, x3⟩ := h s (by simp)
    obtain ⟨d1, a1, a2, a3⟩ := append_or hd x2
    obtain ⟨d2, b1, b2, b3⟩ := ih d1 a2 fun t ht => h t (by simp [ht])
    refine ⟨d2, ?_, b2, fun p hp => ?_⟩
    · rw [List.map_cons, solidsLoop, x1]
      simp only [bind, Except.bind, a1, b1]
    · rw [b3 p fun t ht => hp t (by simp [ht]), a3, x3 p (hp s (by simp))]
      simp [or_assoc]

end Geouned.Facet
