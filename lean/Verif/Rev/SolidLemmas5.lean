import Verif.Rev.SolidLemmas4
/-! Helper lemmas: unions, and the recursion of `BuildDepth`. -/
namespace Geouned.Rev.Solid

variable {α S Bx Sh : Type}

section
variable {K : Kernel α S Bx Sh} {mem : S → α → Prop} {on : Nat → α → Prop} {inBox : Bx → α → Prop}

theorem bound_same {c : Cell Bx} (e : Seq) (hb : BoundReady K c) :
    ∃ bx ori, (buildBound K (getSubCell c e) 100).bound = some ⟨some bx, ori⟩ := by
  obtain ⟨hs, bx, ori, h1, -⟩ := hb
  refine ⟨bx, ori, ?_⟩
  simp [buildBound, getSubCell, hs, h1]

/-- what the loop over the elements of a union does -/
structure OrOK (K : Kernel α S Bx Sh) (mem : S → α → Prop) (on : Nat → α → Prop) (inBox : Bx → α → Prop) (c : Cell Bx)
    (es : List Seq) (base : Option (List (Part S))) (qs : List (Part S)) (lost : List S) : Prop where
  frame : ∀ q ∈ qs, From mem (· ∈ c.surfaces) base q
  sound : ∀ x, inBox c.ext x → inP mem qs x → (∃ e ∈ es, In K e x) ∨ Area K c x
  complete : ∀ x, inBox c.ext x → (∀ v ∈ c.surfaces, ¬ on v x) → ¬ inS mem lost x → inBase mem base x → (∃ e ∈ es, In K e x) →
    Area K c x → inP mem qs x
  fwd : ∀ q ∈ qs, q.ori = .fwd

theorem OrOK.nil {c : Cell Bx} {base : Option (List (Part S))} : OrOK K mem on inBox c [] base [] [] :=
  ⟨by simp, by simp, by simp, by simp⟩

theorem OrOK.cons {c : Cell Bx} {e : Seq} {es : List Seq} {base : Option (List (Part S))} {qs' qs : List (Part S)} {l l' : List S}
    (h : OrOK K mem on inBox c es base qs l')
    (frame : ∀ q ∈ qs', From mem (· ∈ c.surfaces) base q)
    (sound : ∀ x, inBox c.ext x → inP mem qs' x → In K e x ∨ Area K c x)
    (complete : ∀ x, inBox c.ext x → (∀ v ∈ c.surfaces, ¬ on v x) → ¬ inS mem l x → inBase mem base x → In K e x → Area K c x → inP mem qs' x)
    (fwd : ∀ q ∈ qs', q.ori = .fwd) :
    OrOK K mem on inBox c (e :: es) base (qs' ++ qs) (l ++ l') := by
  refine ⟨?_, ?_, ?_, ?_⟩
  · intro q hq
    rcases List.mem_append.1 hq with hq | hq
    · exact frame q hq
    · exact h.frame q hq
  · intro x hx hq
    simp only [inP_append] at hq
    rcases hq with hq | hq
    · rcases sound x hx hq with h1 | h1
      · exact .inl ⟨e, by simp, h1⟩
      · exact .inr h1
    · rcases h.sound x hx hq with ⟨e', he', h1⟩ | h1
      · exact .inl ⟨e', by simp [he'], h1⟩
      · exact .inr h1
  · rintro x hx hn hl hb ⟨e', he', hi⟩ ha
    simp only [inS_append, not_or, inP_append] at hl ⊢
    rcases List.mem_cons.1 he' with rfl | he'
    · exact .inl (complete x hx hn hl.1 hb hi ha)
    · exact .inr (h.complete x hx hn hl.2 hb ⟨e', he', hi⟩ ha)
  · intro q hq
    rcases List.mem_append.1 hq with hq | hq
    · exact fwd q hq
    · exact h.fwd q hq

theorem orLoop_some_ok {rec : Cell Bx → Option (List (Part S)) → Res S} {c : Cell Bx} {p : Part S} (hR : Right K mem on inBox)
    (hb : BoundReady K c) :
    ∀ (es : List Seq), (∀ e ∈ es, RecOK K mem on inBox rec e ∧ Good e ∧ Tidy e ∧ ∀ v, e.Occurs v → v ∈ c.surfaces) →
    KnownOK K mem (· ∈ c.surfaces) p → p.ori = .fwd →
    ∃ qs l, orLoop K rec c (some p) es = .ok (qs, l) ∧ OrOK K mem on inBox c es (some [p]) qs l := by
  intro es
  induction es with
  | nil =>
    intro _ _ _
    exact ⟨[], [], rfl, .nil⟩
  | cons e es ih =>
    intro hes hk hf
    obtain ⟨hrec, hg, ht, he⟩ := hes e (by simp)
    obtain ⟨bx, ori, hm⟩ := bound_same e hb
    obtain ⟨part, keep, h1, r, l, h2, h3, h4, h5, h6, h7⟩ := step_ok (ps := [p]) hR hrec hg ht he hm
      (by simp only [List.mem_singleton, forall_eq]; exact ⟨hk.mono he, hf⟩)
    obtain ⟨qs, l', h8, h9⟩ := ih (fun e' he' => hes e' (by simp [he'])) hk hf
    have hF : ∀ q ∈ keep ++ r, From mem (· ∈ c.surfaces) (some [p]) q := by
      intro q hq
      obtain ⟨b, hb, h10, h11⟩ := h3 q (by simp only [List.mem_append] at hq ⊢; exact hq.symm)
      exact ⟨b, hb, h10, fun j hj => h11 j (fun hj' => hj (he j hj'))⟩
    have hin : ∀ x, inP mem (keep ++ r) x ↔ inP mem (r ++ keep) x := by
      intro x
      simp only [inP_append]
      exact Or.comm
    have hcons := OrOK.cons (e := e) (l := l) h9 hF (fun x hx hq => h5 x hx ((hin x).1 hq))
      (fun x hx hn hl hb hi ha => (hin x).2 (h6 x hx hn hl hb hi ha))
      (fun q hq => h7 q (by simp only [List.mem_append] at hq ⊢; exact hq.symm))
    rcases h2 with ⟨hp, hr, hl⟩ | ⟨hp, hr⟩
    · subst hp hr hl
      refine ⟨_, _, ?_, hcons⟩
      simp only [orLoop, hm, h1]
      simp [bind, Except.bind, h8]
    · have hpe : part.isEmpty = false := by cases h : part <;> simp_all
      refine ⟨_, _, ?_, hcons⟩
      simp only [orLoop, hm, h1]
      simp [bind, Except.bind, hpe, hr, h8]

theorem orLoop_none_ok {rec : Cell Bx → Option (List (Part S)) → Res S} {c : Cell Bx}
    (hp : K.same c.plane.2 c.ext = true → Bounded K c.plane.1) :
    ∀ (es : List Seq), (∀ e ∈ es, RecOK K mem on inBox rec e ∧ Good e ∧ Tidy e ∧ (∀ v, e.Occurs v → v ∈ c.surfaces) ∧ StartsBounded K e) →
    ∃ qs l, orLoop K rec c none es = .ok (qs, l) ∧ OrOK K mem on inBox c es none qs l := by
  intro es
  induction es with
  | nil =>
    intro _
    exact ⟨[], [], rfl, .nil⟩
  | cons e es ih =>
    intro hes
    obtain ⟨hrec, hg, ht, he, hb⟩ := hes e (by simp)
    obtain ⟨⟨r, l⟩, h1, h2⟩ := hrec (getSubCell c e) none rfl (ready_new hg ht he hb hp)
    obtain ⟨qs, l', h3, h4⟩ := ih (fun e' he' => hes e' (by simp [he']))
    refine ⟨r ++ qs, l ++ l', by simp [orLoop, h1, h3, bind, Except.bind], OrOK.cons h4 ?_ ?_ ?_ h2.fwd⟩
    · intro q hq j hj
      exact h2.frame q hq j (fun hj' => hj (he j ((sub_surf he j).1 hj')))
    · intro x hx hq
      exact area_sub.1 (h2.sound x hx hq)
    · intro x hx hn hl _ hi ha
      exact h2.complete x hx (fun v hv => hn v (he v ((sub_surf he v).1 hv))) hl (by simp [inBase]) hi (area_sub.2 hi ha)

theorem in_and {l : Int} {es : List Seq} {x : α} : In K (.lst .and l es) x ↔ ∀ e ∈ es, In K e x := by
  simp only [In, Seq.sem]
  induction es with
  | nil => simp [Seq.semAll]
  | cons e es ih => simp [Seq.semAll, ih]

theorem in_or {l : Int} {es : List Seq} {x : α} : In K (.lst .or l es) x ↔ ∃ e ∈ es, In K e x := by
  simp only [In, Seq.sem]
  induction es with
  | nil => simp [Seq.semAny]
  | cons e es ih => simp [Seq.semAny, ih]

/-- one element of the base of an intersection -/
theorem andOne_ok {rec : Cell Bx → Option (List (Part S)) → Res S} {c : Cell Bx} {l : Int} {es : List Seq} {p : Part S}
    (hR : Right K mem on inBox) (hd : c.definition = .lst .and l es) (hne : es ≠ []) (hb : BoundReady K c)
    (hes : ∀ e ∈ es, RecOK K mem on inBox rec e ∧ Good e ∧ Tidy e ∧ ∀ v, e.Occurs v → v ∈ c.surfaces)
    (hpw : es.Pairwise (fun a b => Joins a → Apart a b)) (hk : KnownOK K mem (· ∈ c.surfaces) p) (hf : p.ori = .fwd)
    (hj : ¬ Joins c.definition → ∀ e ∈ es, ¬ Joins e) :
    ∃ r, depthOne K rec c (some p) = .ok r ∧ DepthOK K mem on inBox c (some [p]) r := by
  cases es with
  | nil => simp at hne
  | cons e es =>
    obtain ⟨qs, lost, h1, h2⟩ := andLoop_ok (c := c) hR (e :: es) [p] hes hpw (by
      simp only [List.mem_singleton, forall_eq]
      exact ⟨hk.mono (fun v ⟨e', he', hv⟩ => (hes e' he').2.2.2 v hv), hf⟩)
    have heq : andLoop K rec c (.one p) (e :: es) = andLoop K rec c (.many [p]) (e :: es) := by
      obtain ⟨bx, ori, hm⟩ := bound_same e hb
      simp only [andLoop, hm, Cur.parts]
    refine ⟨(qs, lost), ?_, ?_, ?_, ?_, ?_, h2.fwd⟩
    · simp only [depthOne, hd, heq, h1]
      rfl
    · intro q hq
      obtain ⟨b, hb', h3, h4⟩ := h2.frame q hq
      exact ⟨b, hb', h3, fun j hj => h4 j (fun e' he' hv => hj ((hes e' he').2.2.2 j hv))⟩
    · intro F hF hB hnj q hq
      rw [baseOK_some] at hB
      exact h2.known F (fun e' he' v hv => hF v ((hes e' he').2.2.2 v hv)) hB (hj hnj) q hq
    · intro x hx hq
      rw [hd, in_and]
      exact h2.sound x hx hq
    · intro x hx hn hl hbx hi ha
      rw [hd, in_and] at hi
      exact h2.complete x hx hn hl hbx hi ha

/-- one element of the base of a union -/
theorem orOne_ok {rec : Cell Bx → Option (List (Part S)) → Res S} {c : Cell Bx} {l : Int} {es : List Seq} {p : Part S}
    (hR : Right K mem on inBox) (hd : c.definition = .lst .or l es) (h0 : l ≠ 0) (hb : BoundReady K c)
    (hes : ∀ e ∈ es, RecOK K mem on inBox rec e ∧ Good e ∧ Tidy e ∧ ∀ v, e.Occurs v → v ∈ c.surfaces)
    (hk : KnownOK K mem (· ∈ c.surfaces) p) (hf : p.ori = .fwd) :
    ∃ r, depthOne K rec c (some p) = .ok r ∧ DepthOK K mem on inBox c (some [p]) r := by
  obtain ⟨qs, lost, h1, h2⟩ := orLoop_some_ok (c := c) hR hb es hes hk hf
  have hfr : ∀ q ∈ qs, (∀ x, mem q.solid x → mem p.solid x) ∧ ∀ j, j ∉ c.surfaces → q.known j = p.known j := by
    intro q hq
    obtain ⟨b, hb', h3, h4⟩ := h2.frame q hq
    simp only [List.mem_singleton] at hb'
    subst hb'
    exact ⟨h3, h4⟩
  obtain ⟨j1, j2⟩ := joinBase_ok (mem := mem) hR (V := (· ∈ c.surfaces)) (known := p.known) qs (fun q hq => (hfr q hq).2) h2.fwd
  refine ⟨((joinBase K qs).toList, lost), ?_, ?_, ?_, ?_, ?_, ?_⟩
  · simp only [depthOne, hd, h1]
    rfl
  · intro q hq
    refine ⟨p, by simp, fun x hx => ?_, (j2 q hq).2⟩
    obtain ⟨q', hq', hx'⟩ := (j1 x).1 ⟨q, hq, hx⟩
    exact (hfr q' hq').1 x hx'
  · intro F _ _ hnj
    rw [hd] at hnj
    exact absurd h0 hnj
  · intro x hx hq
    rw [hd, in_or]
    exact h2.sound x hx ((j1 x).1 hq)
  · intro x hx hn hl hbx hi ha
    rw [hd, in_or] at hi
    exact (j1 x).2 (h2.complete x hx hn hl hbx hi ha)
  · exact fun q hq => (j2 q hq).1

theorem depthL_ok {rec : Cell Bx → Option (List (Part S)) → Res S} {c : Cell Bx} : ∀ bs : List (Part S),
    (∀ p ∈ bs, ∃ r, depthOne K rec c (some p) = .ok r ∧ DepthOK K mem on inBox c (some [p]) r) →
    ∃ r, depthL K rec c (bs.map some) = .ok r ∧ DepthOK K mem on inBox c (some bs) r := by
  intro bs
  induction bs with
  | nil =>
    intro _
    exact ⟨([], []), rfl, by simp, by simp, by simp, by simp [inBase], by simp⟩
  | cons p bs ih =>
    intro h
    obtain ⟨⟨r, l⟩, h1, h2⟩ := h p (by simp)
    obtain ⟨⟨r', l'⟩, h3, h4⟩ := ih (fun q hq => h q (by simp [hq]))
    refine ⟨(r ++ r', l ++ l'), by simp [depthL, h1, h3, bind, Except.bind], ?_, ?_, ?_, ?_, ?_⟩
    · intro q hq
      rcases List.mem_append.1 hq with hq | hq
      · obtain ⟨b, hb, h5⟩ := h2.frame q hq
        simp only [List.mem_singleton] at hb
        subst hb
        exact ⟨b, by simp, h5⟩
      · obtain ⟨b, hb, h5⟩ := h4.frame q hq
        exact ⟨b, by simp [hb], h5⟩
    · intro F hF hB hnj q hq
      rw [baseOK_some] at hB
      rcases List.mem_append.1 hq with hq | hq
      · exact h2.known F hF (baseOK_some.2 (fun b hb => hB b (by simp at hb; simp [hb]))) hnj q hq
      · exact h4.known F hF (baseOK_some.2 (fun b hb => hB b (by simp [hb]))) hnj q hq
    · intro x hx hq
      simp only [inP_append] at hq
      rcases hq with hq | hq
      · exact h2.sound x hx hq
      · exact h4.sound x hx hq
    · intro x hx hn hl hb hi ha
      simp only [inS_append, not_or, inP_append, inBase, inP_cons] at hl hb ⊢
      rcases hb with hb | hb
      · exact .inl (h2.complete x hx hn hl.1 (by simpa [inBase] using hb) hi ha)
      · exact .inr (h4.complete x hx hn hl.2 hb hi ha)
    · intro q hq
      rcases List.mem_append.1 hq with hq | hq
      · exact h2.fwd q hq
      · exact h4.fwd q hq

/-- an intersection without a base -/
theorem andNone_ok {rec : Cell Bx → Option (List (Part S)) → Res S} {c : Cell Bx} {l : Int} {es : List Seq}
    (hR : Right K mem on inBox) (hd : c.definition = .lst .and l es) (hne : es ≠ [])
    (hes : ∀ e ∈ es, RecOK K mem on inBox rec e ∧ Good e ∧ Tidy e ∧ ∀ v, e.Occurs v → v ∈ c.surfaces)
    (hpw : es.Pairwise (fun a b => Joins a → Apart a b)) (hsb : ∀ e es', es = e :: es' → StartsBounded K e)
    (hp : K.same c.plane.2 c.ext = true → Bounded K c.plane.1) (hj : ¬ Joins c.definition → ∀ e ∈ es, ¬ Joins e) :
    ∃ r, depthOne K rec c none = .ok r ∧ DepthOK K mem on inBox c none r := by
  cases es with
  | nil => simp at hne
  | cons e es =>
    obtain ⟨hrec, hg, ht, he⟩ := hes e (by simp)
    obtain ⟨⟨ps, l0⟩, h1, h2⟩ := hrec (getSubCell c e) none rfl (ready_new hg ht he (hsb e es rfl) hp)
    rw [List.pairwise_cons] at hpw
    have hk : ∀ p ∈ ps, KnownOK K mem (fun v => ∃ e ∈ es, e.Occurs v) p := by
      intro p hp
      by_cases hje : Joins e
      · rintro k ⟨e', he', hk⟩ v hv
        have := h2.frame p hp k (fun hk' => hpw.1 e' he' hje k ((sub_surf he k).1 hk') hk)
        rw [this] at hv
        simp at hv
      · exact (h2.known (fun _ => True) (by simp) baseOK_none hje p hp).mono (by simp)
    obtain ⟨qs, lost, h3, h4⟩ := andLoop_ok (c := c) hR es ps (fun e' he' => hes e' (by simp [he'])) hpw.2 (fun p hp => ⟨hk p hp, h2.fwd p hp⟩)
    refine ⟨(qs, l0 ++ lost), ?_, ?_, ?_, ?_, ?_, h4.fwd⟩
    · simp only [depthOne, hd, andLoop, h1]
      simp [bind, Except.bind, h3, Cur.extend]
    · intro q hq j hj
      obtain ⟨b, hb, -, h5⟩ := h4.frame q hq
      rw [h5 j (fun e' he' hv => hj ((hes e' (by simp [he'])).2.2.2 j hv))]
      exact h2.frame b hb j (fun hj' => hj (he j ((sub_surf he j).1 hj')))
    · intro F hF _ hnj q hq
      have hj' := hj hnj
      exact h4.known F (fun e' he' v hv => hF v ((hes e' (by simp [he'])).2.2.2 v hv))
        (fun b hb => h2.known F (fun v hv => hF v (he v ((sub_surf he v).1 hv))) baseOK_none (hj' e (by simp)) b hb)
        (fun e' he' => hj' e' (by simp [he'])) q hq
    · intro x hx hq
      rw [hd, in_and]
      rcases h4.sound x hx hq with h | h
      · obtain ⟨q, hq, hm⟩ := hq
        obtain ⟨b, hb, h5, -⟩ := h4.frame q hq
        rcases area_sub.1 (h2.sound x hx ⟨b, hb, h5 x hm⟩) with h6 | h6
        · left
          intro e' he'
          rcases List.mem_cons.1 he' with rfl | he'
          · exact h6
          · exact h e' he'
        · exact .inr h6
      · exact .inr h
    · intro x hx hn hl _ hi ha
      rw [hd, in_and] at hi
      simp only [inS_append, not_or] at hl
      have h5 := h2.complete x hx (fun v hv => hn v (he v ((sub_surf he v).1 hv))) hl.1 (by simp [inBase]) (hi e (by simp))
        (area_sub.2 (hi e (by simp)) ha)
      exact h4.complete x hx hn hl.2 h5 (fun e' he' => hi e' (by simp [he'])) ha

/-- a union without a base -/
theorem orNone_ok {rec : Cell Bx → Option (List (Part S)) → Res S} {c : Cell Bx} {l : Int} {es : List Seq}
    (hR : Right K mem on inBox) (hd : c.definition = .lst .or l es) (h0 : l ≠ 0)
    (hes : ∀ e ∈ es, RecOK K mem on inBox rec e ∧ Good e ∧ Tidy e ∧ (∀ v, e.Occurs v → v ∈ c.surfaces) ∧ StartsBounded K e)
    (hp : K.same c.plane.2 c.ext = true → Bounded K c.plane.1) :
    ∃ r, depthOne K rec c none = .ok r ∧ DepthOK K mem on inBox c none r := by
  obtain ⟨qs, lost, h1, h2⟩ := orLoop_none_ok (c := c) hp es hes
  obtain ⟨j1, j2⟩ := joinBase_ok (mem := mem) hR (V := (· ∈ c.surfaces)) (known := fun _ => none) qs (fun q hq => h2.frame q hq) h2.fwd
  refine ⟨((joinBase K qs).toList, lost), ?_, ?_, ?_, ?_, ?_, ?_⟩
  · simp only [depthOne, hd, h1]
    rfl
  · intro q hq
    exact (j2 q hq).2
  · intro F _ _ hnj
    rw [hd] at hnj
    exact absurd h0 hnj
  · intro x hx hq
    rw [hd, in_or]
    exact h2.sound x hx ((j1 x).1 hq)
  · intro x hx hn hl hbx hi ha
    rw [hd, in_or] at hi
    exact (j1 x).2 (h2.complete x hx hn hl hbx hi ha)
  · exact fun q hq => (j2 q hq).1

theorem depthL_none {rec : Cell Bx → Option (List (Part S)) → Res S} {c : Cell Bx} {r : List (Part S) × List S} (h : depthOne K rec c none = .ok r) :
    depthL K rec c [none] = .ok r := by
  simp [depthL, h, bind, Except.bind]

/-- the definition may be replaced by one that means the same -/
theorem DepthOK.congr {c : Cell Bx} {d : Seq} {base : Option (List (Part S))} {r : List (Part S) × List S}
    (h : DepthOK K mem on inBox { c with definition := d } base r) (hs : ∀ x, In K d x ↔ In K c.definition x)
    (hj : ¬ Joins c.definition → ¬ Joins d) : DepthOK K mem on inBox c base r := by
  have ha : ∀ x, Area K { c with definition := d } x ↔ Area K c x := by
    intro x
    unfold Area
    split
    · exact Iff.rfl
    · exact hs x
  refine ⟨h.frame, fun F hF hB hnj => h.known F hF hB (hj hnj), ?_, ?_, h.fwd⟩
  · intro x hx hq
    rw [← hs, ← ha]
    exact h.sound x hx hq
  · intro x hx hn hl hb hi hx'
    exact h.complete x hx hn hl hb ((hs x).2 hi) ((ha x).2 hx')

theorem buildDepth_ok (hR : Right K mem on inBox) : ∀ (f : Nat) (e : Seq), (isLeaf e = true ∧ 1 ≤ f ∨ e.depth + 1 ≤ f) →
    RecOK K mem on inBox (buildDepth (S := S) K f) e := by
  intro f
  induction f with
  | zero => intro e he; rcases he with ⟨-, h⟩ | h <;> omega
  | succ f ih =>
    intro e hfe c base hce hr
    subst hce
    by_cases hl : isLeaf c.definition = true
    · have hlf := hr.good.leaf hl
      have hne : c.surfaces ≠ [] := by
        obtain ⟨v, hv⟩ := hr.good.occurs
        intro h
        have := (hr.surf v).2 hv
        rw [h] at this
        simp at this
      simp only [buildDepth, leaf_group hlf]
      have hl' : isLeaf c.definition = true := hl
      simp only [hl', if_true]
      cases hb : base with
      | none =>
        obtain ⟨h1, h2, h3⟩ := hr.none hb
        obtain ⟨r, e1, p1, f1⟩ := partsNew_ok (c := c) hR hlf hr.surf hne (fun m hm => (h3 m hm).2)
        refine ⟨(r.full, r.lost), by simp [e1, bind, Except.bind], p1.frame, fun F hF hB _ => p1.known F hF hB,
          fun x _ hx => .inl (p1.sound x hx), p1.complete, f1 (fun m hm => (h3 m hm).1) ?_⟩
        intro e
        simp only [buildBound, Option.map_some, Option.some.injEq]
        split
        · next hs => exact h2 hs _ _
        · obtain ⟨op, l, es, hd⟩ := hr.good.lst
          rw [hd] at h1 ⊢
          exact h1.1 _ _
      | some bs =>
        obtain ⟨⟨-, bx, ori, -, h2⟩, h3⟩ := hr.some bs hb
        obtain ⟨r, e1, p1, f1⟩ := partsL_ok hR hlf hr.surf hne h2 bs (fun b hb => (h3 b hb).1)
        exact ⟨(r.full, r.lost), by simp [e1, bind, Except.bind], p1.frame, fun F hF hB _ => p1.known F hF hB,
          fun x _ hx => .inl (p1.sound x hx), p1.complete, f1 (fun b hb => (h3 b hb).2)⟩
    · obtain ⟨op, l, es, hd⟩ := hr.good.lst
      have hg := hr.good
      have ht := hr.tidy
      rw [hd] at hg ht hl hfe
      have h0 : l ≠ 0 := by simpa [isLeaf] using hl
      obtain ⟨es', g1, g2, g3, g4, g5, g6, g7, g8⟩ := grouped (K := K) hg ht h0
      have hdep : (Seq.lst op l es).depth ≤ f := by
        rcases hfe with ⟨h, -⟩ | h
        · exact absurd h hl
        · omega
      have hf1 : 1 ≤ f := by rw [depth_lst] at hdep; omega
      have hl2 : isLeaf (Seq.lst op l es') = false := by simpa [isLeaf] using h0
      have hrecs : ∀ e ∈ es', RecOK K mem on inBox (buildDepth (S := S) K f) e ∧ Good e ∧ Tidy e ∧ ∀ v, e.Occurs v → v ∈ c.surfaces := by
        intro e he
        obtain ⟨a1, a2, a3⟩ := g3 e he
        refine ⟨ih e ?_, a1, a2, fun v hv => ?_⟩
        · rcases a3 with a3 | a3
          · exact .inl ⟨a3, hf1⟩
          · exact .inr (by omega)
        · rw [hr.surf v, hd, ← g6 v]
          simp only [Seq.Occurs, OccursL_iff]
          exact ⟨e, he, hv⟩
      have hsem : ∀ x, In K (.lst op l es') x ↔ In K c.definition x := by
        intro x
        rw [hd]
        unfold In
        rw [g5]
      have hjj : op = .and → ¬ Joins (Seq.lst op l es') → ∀ e ∈ es', ¬ Joins e := by
        rintro rfl h e he hje
        exact h (joinsL_iff.2 ⟨e, he, hje⟩)
      have hjd : ¬ Joins c.definition → ¬ Joins (.lst op l es') := by
        rw [hd]
        intro h
        cases op with
        | or => exact h
        | and =>
          intro h'
          obtain ⟨e, he, hje⟩ := joinsL_iff.1 h'
          exact g7 rfl h e he hje
      suffices hh : ∃ r, buildDepth K (f + 1) c base = .ok r ∧ DepthOK K mem on inBox { c with definition := .lst op l es' } base r by
        obtain ⟨r, e1, e2⟩ := hh
        exact ⟨r, e1, e2.congr hsem hjd⟩
      simp only [buildDepth, hd, g1, hl2]
      cases hb : base with
      | none =>
        obtain ⟨h1, h2, h3⟩ := hr.none hb
        rw [hd] at h1
        have hsb := g8 h1
        cases op with
        | and =>
          obtain ⟨r, e1, e2⟩ := andNone_ok (c := { c with definition := .lst .and l es' }) hR rfl g2 hrecs (g4 rfl) (hsb.2 rfl) h2 (hjj rfl)
          exact ⟨r, by simpa using depthL_none e1, e2⟩
        | or =>
          obtain ⟨r, e1, e2⟩ := orNone_ok (c := { c with definition := .lst .or l es' }) hR rfl h0
            (fun e he => ⟨(hrecs e he).1, (hrecs e he).2.1, (hrecs e he).2.2.1, (hrecs e he).2.2.2, hsb.1 rfl e he⟩) h2
          exact ⟨r, by simpa using depthL_none e1, e2⟩
      | some bs =>
        obtain ⟨h2, h3⟩ := hr.some bs hb
        have h2' : BoundReady K { c with definition := .lst op l es' } := h2
        cases op with
        | and =>
          obtain ⟨r, e1, e2⟩ := depthL_ok (c := { c with definition := .lst .and l es' }) bs (fun p hp =>
            andOne_ok hR rfl g2 h2' hrecs (g4 rfl) (h3 p hp).1 (h3 p hp).2 (hjj rfl))
          exact ⟨r, by simpa using e1, e2⟩
        | or =>
          obtain ⟨r, e1, e2⟩ := depthL_ok (c := { c with definition := .lst .or l es' }) bs (fun p hp =>
            orOne_ok hR rfl h0 h2' hrecs (h3 p hp).1 (h3 p hp).2)
          exact ⟨r, by simpa using e1, e2⟩

end

end Geouned.Rev.Solid
