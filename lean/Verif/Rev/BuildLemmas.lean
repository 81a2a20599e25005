import Verif.Rev.Build
/-! Lemmas on the construction of nested universes -/
namespace Geouned.Rev

section
variable {P : Type} {us : Universes P} {rank : Nat → Nat}

/-! ### nesting -/

theorem Nests.trans {U V W : Nat} (h1 : Nests us U V) (h2 : Nests us V W) : Nests us U W := by
  induction h2 with
  | refl => exact h1
  | step _ hf ih => exact .step ih hf

theorem Nests.rank_le (wn : WellNested us rank) {U V : Nat} (h : Nests us U V) : rank V ≤ rank U := by
  induction h with
  | refl => exact Nat.le_refl _
  | step _ hf ih => have := wn.nested _ _ _ hf; omega

theorem Nests.chain (once : FilledOnce us) {A B W : Nat} (h1 : Nests us A W) (h2 : Nests us B W) : Nests us A B ∨ Nests us B A := by
  induction h1 with
  | refl => exact .inr h2
  | step ha hf ih =>
    cases h2 with
    | refl => exact .inl (.step ha hf)
    | step hb hf' =>
      obtain ⟨rfl, -⟩ := once _ _ _ _ _ hf hf'
      exact ih hb

/-- universes nested in different cells of a universe are different -/
theorem nests_apart (wn : WellNested us rank) (once : FilledOnce us) {U V₁ V₂ W : Nat} {c₁ c₂ : PCell P} (h1 : FilledBy us U c₁ V₁)
    (h2 : FilledBy us U c₂ V₂) (hne : c₁.name ≠ c₂.name) (n1 : Nests us V₁ W) (n2 : Nests us V₂ W) : False := by
  have key : ∀ {V₁ V₂ : Nat} {c₁ c₂ : PCell P}, FilledBy us U c₁ V₁ → FilledBy us U c₂ V₂ → c₁.name ≠ c₂.name → Nests us V₁ V₂ → False := by
    intro V₁ V₂ c₁ c₂ h1 h2 hne h
    cases h with
    | refl => exact hne (once _ _ _ _ _ h1 h2).2
    | step hs hf =>
      obtain ⟨rfl, -⟩ := once _ _ _ _ _ h2 hf
      have g1 := hs.rank_le wn
      have g2 := wn.nested _ _ _ h1
      omega
  rcases n1.chain once n2 with h | h
  · exact key h1 h2 hne h
  · exact key h2 h1 (Ne.symm hne) h

/-! ### one cell -/

/-- what is known of the solid of a container: `I` is where its universe is visible -/
def Holds (cont : Container P) (I B : P → Prop) : Prop :=
  match cont.shape with
  | none => cont.tr = none ∧ (∀ p, I p) ∧ ∀ p, B p → cont.externalBox p
  | some s => (∀ p, I p → B p → s p) ∧ ((∃ p, I p ∧ B p) → ∀ p, s p → I p)

theorem ext_spec {K : Kernel P} (hK : K.Lawful) {cont : Container P} {I B : P → Prop} (h : Holds cont I B) (p : P) (hI : I p) (hB : B p) :
    moved cont.tr (extBox K cont) p := by
  unfold Holds at h
  unfold extBox
  cases hs : cont.shape with
  | none =>
    rw [hs] at h
    simp only at h ⊢
    rw [h.1]
    exact h.2.2 p hB
  | some s =>
    rw [hs] at h
    simp only at h ⊢
    have hsp := h.1 p hI hB
    cases ht : cont.tr with
    | none => exact hK.bbox_sub _ _ hsp
    | some t =>
      apply hK.boxBack_sub
      rw [t.fwd_back]
      exact hK.bbox_sub _ _ hsp

theorem moved_mono (t : Option (Motion P)) {S S' : P → Prop} (h : ∀ p, S p → S' p) : ∀ p, moved t S p → moved t S' p := by
  cases t with
  | none => exact h
  | some t => exact fun p => h _

theorem moved_and (t : Option (Motion P)) {S S' S'' : P → Prop} (h : ∀ p, S p → S' p → S'' p) : ∀ p, moved t S p → moved t S' p → moved t S'' p := by
  cases t with
  | none => exact h
  | some t => exact fun p => h _

theorem cutIn_shows {K : Kernel P} (hK : K.Lawful) {cont : Container P} {I B r s : P → Prop} (h : Holds cont I B) (h1 : ∀ p, s p → r p)
    (h2 : ∀ p, r p → I p → B p → s p) : Shows (cutIn K cont s) r I B := by
  unfold Holds at h
  unfold cutIn
  cases hs : cont.shape with
  | none =>
    rw [hs] at h
    simp only at h ⊢
    exact ⟨h1, h2, fun _ p _ => h.2.1 p⟩
  | some cs =>
    rw [hs] at h
    simp only at h ⊢
    by_cases he : ∃ p, s p ∧ cs p
    · have hc := hK.cut_parts cs s he
      refine ⟨fun p hp => h1 p ((hc p).1 hp).1, fun p hr hI hB => (hc p).2 ⟨h2 p hr hI hB, h.1 p hI hB⟩, ?_⟩
      rintro ⟨q, -, hq2, hq3⟩ p hp
      exact h.2 ⟨q, hq2, hq3⟩ p ((hc p).1 hp).2
    · rw [hK.cut_whole cs s he]
      refine ⟨h1, h2, ?_⟩
      rintro ⟨q, hq1, hq2, hq3⟩
      exact absurd ⟨q, h2 q hq1 hq2 hq3, h.1 q hq2 hq3⟩ he

/-- a cell that has no shape yet -/
theorem placeCell_fresh {K : Kernel P} (hK : K.Lawful) {cont : Container P} {I B : P → Prop} (h : Holds cont I B) (st : Shapes P) (c : PCell P)
    (hst : st cont.fill c.name = none) :
    (∃ s s', placeCell K cont st c = (some s, [], st.set cont.fill c.name s') ∧ Shows s (moved cont.tr c.region) I B) ∨
    (placeCell K cont st c = (none, [], st) ∧ ∀ p, ¬ (moved cont.tr c.region p ∧ I p ∧ B p)) ∨
    placeCell K cont st c = (none, [c.name], st) := by
  unfold placeCell
  rw [hst]
  simp only
  cases hb : K.build c.region (extBox K cont) with
  | failed => exact .inr (.inr rfl)
  | nothing =>
    refine .inr (.inl ⟨rfl, ?_⟩)
    rintro p ⟨h1, h2, h3⟩
    have hn := hK.build_nothing _ _ hb
    have h4 := ext_spec hK h p h2 h3
    cases ht : cont.tr with
    | none => rw [ht] at h1 h4; exact hn p ⟨h1, h4⟩
    | some t => rw [ht] at h1 h4; exact hn _ ⟨h1, h4⟩
  | solid s =>
    obtain ⟨g1, g2⟩ := hK.build_solid _ _ _ hb
    refine .inl ⟨_, s, rfl, cutIn_shows hK h (moved_mono _ g1) fun p h1 h2 h3 => ?_⟩
    exact moved_and cont.tr g2 p h1 (ext_spec hK h p h2 h3)

theorem Shapes.set_ne (st : Shapes P) {U n V m : Nat} (s : P → Prop) (h : ¬ (V = U ∧ m = n)) : st.set U n s V m = st V m := if_neg h

/-! ### the loop -/

/-- `At` for a given first cell -/
def AtC (us : Universes P) (d : Nat) (G : Option (Motion P)) (I : P → Prop) (c₀ : PCell P) (path : List Nat) (c : PCell P) (G' : Option (Motion P))
    (I' : P → Prop) : Prop :=
  (path = [] ∧ c = c₀ ∧ (c₀.fill = none ∨ d = 0) ∧ G' = G ∧ I' = I) ∨
  (∃ e V path', d = e + 1 ∧ path = c₀.name :: path' ∧ c₀.fill = some V ∧
    At us e V (compose G c₀.place) (fun p => I p ∧ moved G c₀.region p) path' c G' I')

theorem at_iff {d U : Nat} {G : Option (Motion P)} {I : P → Prop} {path : List Nat} {c : PCell P} {G' : Option (Motion P)} {I' : P → Prop} :
    At us d U G I path c G' I' ↔ ∃ cs, us U = some cs ∧ ∃ c₀ ∈ cs, AtC us d G I c₀ path c G' I' := by
  constructor
  · intro h
    cases h with
    | leaf h1 h2 h3 => exact ⟨_, h1, c, h2, .inl ⟨rfl, rfl, h3, rfl, rfl⟩⟩
    | into h1 h2 h3 h4 => exact ⟨_, h1, _, h2, .inr ⟨_, _, _, rfl, rfl, h3, h4⟩⟩
  · rintro ⟨cs, h1, c₀, h2, ⟨rfl, rfl, h3, rfl, rfl⟩ | ⟨e, V, path', rfl, rfl, h3, h4⟩⟩
    · exact .leaf h1 h2 h3
    · exact .into h1 h2 h3 h4

/-- the solids of some cells of a universe are right -/
structure CorrectC (us : Universes P) (d : Nat) (G : Option (Motion P)) (I B : P → Prop) (cs : List (PCell P)) (leaves : List (Leaf P)) (fails : List Nat) : Prop where
  nodup : (leaves.map fun l => l.path ++ [l.name]).Nodup
  sound : ∀ l ∈ leaves, ∃ c₀ ∈ cs, ∃ c G' I', AtC us d G I c₀ l.path c G' I' ∧ c.name = l.name ∧ Shows l.shape (moved G' c.region) I' B
  complete : ∀ c₀ ∈ cs, ∀ path c G' I', AtC us d G I c₀ path c G' I' → (∃ p, moved G' c.region p ∧ I' p ∧ B p) →
    (∃ l ∈ leaves, l.path = path ∧ l.name = c.name ∧ Shows l.shape (moved G' c.region) I' B) ∨ ∃ n ∈ path ++ [c.name], n ∈ fails

theorem atC_head {d : Nat} {G : Option (Motion P)} {I : P → Prop} {c₀ : PCell P} {path : List Nat} {c : PCell P} {G' : Option (Motion P)} {I' : P → Prop}
    (h : AtC us d G I c₀ path c G' I') : (path ++ [c.name]).head? = some c₀.name := by
  rcases h with ⟨rfl, rfl, -⟩ | ⟨e, V, path', rfl, rfl, -⟩ <;> rfl

/-- solids of one more cell -/
theorem correct_cons {d : Nat} {G : Option (Motion P)} {I B : P → Prop} {c : PCell P} {cs : List (PCell P)} {l₁ l₂ : List (Leaf P)} {f₁ f₂ : List Nat}
    (hn : c.name ∉ cs.map (·.name)) (h1 : CorrectC us d G I B [c] l₁ f₁) (h2 : CorrectC us d G I B cs l₂ f₂) :
    CorrectC us d G I B (c :: cs) (l₁ ++ l₂) (f₁ ++ f₂) := by
  refine ⟨?_, ?_, ?_⟩
  · rw [List.map_append, List.nodup_append]
    refine ⟨h1.nodup, h2.nodup, ?_⟩
    intro a ha b hb e
    subst e
    obtain ⟨x, hx, rfl⟩ := List.mem_map.1 ha
    obtain ⟨y, hy, hxy⟩ := List.mem_map.1 hb
    obtain ⟨c₁, hc₁, _, _, _, g1, e1, -⟩ := h1.sound x hx
    obtain ⟨c₂, hc₂, _, _, _, g2, e2, -⟩ := h2.sound y hy
    have k1 := atC_head g1
    have k2 := atC_head g2
    rw [e1] at k1
    rw [e2, hxy, k1] at k2
    simp only [List.mem_singleton] at hc₁
    subst hc₁
    exact hn (List.mem_map.2 ⟨c₂, hc₂, (Option.some.inj k2).symm⟩)
  · intro l hl
    rcases List.mem_append.1 hl with hl | hl
    · obtain ⟨c₁, hc₁, h⟩ := h1.sound l hl
      simp only [List.mem_singleton] at hc₁
      subst hc₁
      exact ⟨c₁, by simp, h⟩
    · obtain ⟨c₁, hc₁, h⟩ := h2.sound l hl
      exact ⟨c₁, by simp [hc₁], h⟩
  · intro c₀ hc₀ path c' G' I' hat hne
    rcases List.mem_cons.1 hc₀ with rfl | hc₀
    · rcases h1.complete c₀ (by simp) path c' G' I' hat hne with ⟨l, hl, h⟩ | ⟨n, hn1, hn2⟩
      · exact .inl ⟨l, by simp [hl], h⟩
      · exact .inr ⟨n, hn1, by simp [hn2]⟩
    · rcases h2.complete c₀ hc₀ path c' G' I' hat hne with ⟨l, hl, h⟩ | ⟨n, hn1, hn2⟩
      · exact .inl ⟨l, by simp [hl], h⟩
      · exact .inr ⟨n, hn1, by simp [hn2]⟩

/-- a cell that is not filled, or not expanded -/
theorem correct_leaf {d : Nat} {G : Option (Motion P)} {I B s : P → Prop} {c : PCell P} (hd : c.fill = none ∨ d = 0)
    (hs : Shows s (moved G c.region) I B) : CorrectC us d G I B [c] [⟨[], c.name, s⟩] [] := by
  refine ⟨by simp, ?_, ?_⟩
  · intro l hl
    simp only [List.mem_singleton] at hl
    subst hl
    exact ⟨c, by simp, c, G, I, .inl ⟨rfl, rfl, hd, rfl, rfl⟩, rfl, hs⟩
  · intro c₀ hc₀ path c' G' I' hat _
    simp only [List.mem_singleton] at hc₀
    subst hc₀
    rcases hat with ⟨rfl, rfl, -, rfl, rfl⟩ | ⟨e, V, path', rfl, rfl, hV, -⟩
    · exact .inl ⟨⟨[], c'.name, s⟩, by simp, rfl, rfl, hs⟩
    · rcases hd with hd | hd
      · rw [hd] at hV; cases hV
      · omega

/-- places in nested universes are visible in the container only -/
theorem at_inside {d U : Nat} {G : Option (Motion P)} {I : P → Prop} {path : List Nat} {c : PCell P} {G' : Option (Motion P)} {I' : P → Prop}
    (h : At us d U G I path c G' I') : ∀ p, I' p → I p := by
  induction h with
  | leaf => exact fun p h => h
  | into _ _ _ _ ih => exact fun p h => (ih p h).1

/-- a cell that is not seen -/
theorem correct_empty {d : Nat} {G : Option (Motion P)} {I B : P → Prop} {c : PCell P} (hp : ∀ p, ¬ (moved G c.region p ∧ I p ∧ B p)) :
    CorrectC us d G I B [c] [] [] := by
  refine ⟨by simp, by simp, ?_⟩
  intro c₀ hc₀ path c' G' I' hat hne
  simp only [List.mem_singleton] at hc₀
  subst hc₀
  obtain ⟨p, h1, h2, h3⟩ := hne
  rcases hat with ⟨rfl, rfl, -, rfl, rfl⟩ | ⟨e, V, path', rfl, rfl, -, hV⟩
  · exact absurd ⟨h1, h2, h3⟩ (hp p)
  · have := at_inside hV p h2
    exact absurd ⟨this.2, this.1, h3⟩ (hp p)

/-- a cell that could not be built -/
theorem correct_failed {d : Nat} {G : Option (Motion P)} {I B : P → Prop} {c : PCell P} : CorrectC us d G I B [c] [] [c.name] := by
  refine ⟨by simp, by simp, ?_⟩
  intro c₀ hc₀ path c' G' I' hat _
  simp only [List.mem_singleton] at hc₀
  subst hc₀
  rcases hat with ⟨rfl, rfl, -, rfl, rfl⟩ | ⟨e, V, path', rfl, rfl, -, -⟩
  · exact .inr ⟨c'.name, by simp, by simp⟩
  · exact .inr ⟨c₀.name, by simp, by simp⟩

/-- a cell that is expanded -/
theorem correct_into {d V : Nat} {G : Option (Motion P)} {I B : P → Prop} {c : PCell P} {vs : List (PCell P)} {ls : List (Leaf P)} {fl : List Nat}
    (hV : c.fill = some V) (hvs : us V = some vs) (h : CorrectC us d (compose G c.place) (fun p => I p ∧ moved G c.region p) B vs ls fl) :
    CorrectC us (d + 1) G I B [c] (ls.map fun l => ⟨c.name :: l.path, l.name, l.shape⟩) fl := by
  refine ⟨?_, ?_, ?_⟩
  · have := h.nodup
    unfold List.Nodup at this ⊢
    rw [List.pairwise_map] at this ⊢
    rw [List.pairwise_map]
    refine this.imp ?_
    intro a b hab e
    exact hab (List.cons.inj e).2
  · intro l hl
    obtain ⟨l', hl', rfl⟩ := List.mem_map.1 hl
    obtain ⟨c₀, hc₀, c', G', I', h1, h2, h3⟩ := h.sound l' hl'
    exact ⟨c, by simp, c', G', I', .inr ⟨d, V, l'.path, rfl, rfl, hV, at_iff.2 ⟨vs, hvs, c₀, hc₀, h1⟩⟩, h2, h3⟩
  · intro c₀ hc₀ path c' G' I' hat hne
    simp only [List.mem_singleton] at hc₀
    subst hc₀
    rcases hat with ⟨rfl, rfl, hd, rfl, rfl⟩ | ⟨e, W, path', he, rfl, hW, hat⟩
    · rcases hd with hd | hd
      · rw [hd] at hV; cases hV
      · omega
    · cases Nat.succ.inj he
      rw [hV] at hW
      cases hW
      obtain ⟨ws, hws, c₁, hc₁, hat⟩ := at_iff.1 hat
      rw [hvs] at hws
      cases hws
      rcases h.complete c₁ hc₁ path' c' G' I' hat hne with ⟨l, hl, h1, h2, h3⟩ | ⟨n, hn1, hn2⟩
      · exact .inl ⟨_, List.mem_map.2 ⟨l, hl, rfl⟩, by simp [h1], h2, h3⟩
      · exact .inr ⟨n, by simp at hn1 ⊢; exact .inr hn1, hn2⟩

/-! ### the recursion -/

theorem nextTR_spec {placed : Nat → Prop} (pg : PlacesGiven us placed) {cont : Container P} {c : PCell P} {V : Nat} (hf : FilledBy us cont.fill c V)
    (ht : cont.tr ≠ none → placed cont.fill) :
    nextTR cont c = .ok (compose cont.tr c.place) ∧ (compose cont.tr c.place ≠ none → placed V) := by
  obtain ⟨h1, h2⟩ := pg _ _ _ hf
  unfold nextTR
  cases hc : cont.tr with
  | none => exact ⟨rfl, h2⟩
  | some t =>
    cases hp : c.place with
    | none => exact absurd hp (h1 (ht (by rw [hc]; simp)))
    | some t' => exact ⟨rfl, fun _ => h2 (by rw [hp]; simp)⟩

/-- the shapes that are not touched -/
def Frame (us : Universes P) (U : Nat) (cs : List (PCell P)) (st st' : Shapes P) : Prop :=
  ∀ V n, (∀ c ∈ cs, ¬ (V = U ∧ n = c.name) ∧ ∀ W, c.fill = some W → ¬ Nests us W V) → st' V n = st V n

/-- nothing has been built of these cells -/
def Fresh (us : Universes P) (U : Nat) (cs : List (PCell P)) (st : Shapes P) : Prop :=
  ∀ c ∈ cs, st U c.name = none ∧ ∀ W, c.fill = some W → ∀ V n, Nests us W V → st V n = none

theorem cellsLoop_spec {K : Kernel P} (hK : K.Lawful) (wn : WellNested us rank) (once : FilledOnce us) {placed : Nat → Prop} (pg : PlacesGiven us placed)
    (B : P → Prop) (levelMax : Int) (rec : Container P → Shapes P → R (Out P)) (cont : Container P) (full : List (PCell P))
    (hfull : us cont.fill = some full) (ht : cont.tr ≠ none → placed cont.fill) (d : Nat) (hd : d = (levelMax - cont.level).toNat) (I : P → Prop)
    (hI : Holds cont I B)
    (hrec : ∀ (cont' : Container P) (st : Shapes P) (e : Nat) (I' : P → Prop) (c : PCell P), d = e + 1 → FilledBy us cont.fill c cont'.fill →
      (cont'.tr ≠ none → placed cont'.fill) → e = (levelMax - cont'.level).toNat → Holds cont' I' B → (∀ V n, Nests us cont'.fill V → st V n = none) →
      ∃ o vs, rec cont' st = .ok o ∧ us cont'.fill = some vs ∧ CorrectC us e cont'.tr I' B vs o.leaves o.fails ∧
        ∀ V n, ¬ Nests us cont'.fill V → o.shapes V n = st V n) :
    ∀ (cs : List (PCell P)) (st : Shapes P), (∀ c ∈ cs, c ∈ full) → (cs.map (·.name)).Nodup → Fresh us cont.fill cs st →
      ∃ o, cellsLoop K levelMax rec cont cs st = .ok o ∧ CorrectC us d cont.tr I B cs o.leaves o.fails ∧ Frame us cont.fill cs st o.shapes
  | [], st, _, _, _ => ⟨⟨[], [], st⟩, rfl, ⟨by simp, by simp, by simp⟩, fun _ _ _ => rfl⟩
  | c :: cs, st, hsub, hnd, hfr => by
    have hc : c ∈ full := hsub c (by simp)
    have hnd' : (cs.map (·.name)).Nodup := by simp only [List.map_cons, List.nodup_cons] at hnd; exact hnd.2
    have hnc : c.name ∉ cs.map (·.name) := by simp only [List.map_cons, List.nodup_cons] at hnd; exact hnd.1
    -- the other cells are still fresh when only `c` and what is nested in it were touched
    have hnext : ∀ st', (∀ V n, ¬ (V = cont.fill ∧ n = c.name) → (∀ W, c.fill = some W → ¬ Nests us W V) → st' V n = st V n) → Fresh us cont.fill cs st' := by
      intro st' hst' c' hc'
      have hne : c'.name ≠ c.name := fun e => hnc (List.mem_map.2 ⟨c', hc', e⟩)
      obtain ⟨g1, g2⟩ := hfr c' (by simp [hc'])
      constructor
      · rw [hst' _ _ (fun e => hne e.2) ?_]
        · exact g1
        · intro W hW hN
          have h1 := hN.rank_le wn
          have h2 := wn.nested _ _ _ ⟨full, hfull, hc, hW⟩
          omega
      · intro W hW V n hN
        rw [hst' _ _ ?_ ?_]
        · exact g2 W hW V n hN
        · rintro ⟨rfl, -⟩
          have h1 := hN.rank_le wn
          have h2 := wn.nested _ _ _ ⟨full, hfull, hsub c' (by simp [hc']), hW⟩
          omega
        · intro W' hW' hN'
          exact nests_apart wn once ⟨full, hfull, hc, hW'⟩ ⟨full, hfull, hsub c' (by simp [hc']), hW⟩ (Ne.symm hne) hN' hN
    have hframe : ∀ st' st'' : Shapes P, (∀ V n, ¬ (V = cont.fill ∧ n = c.name) → (∀ W, c.fill = some W → ¬ Nests us W V) → st' V n = st V n) →
        Frame us cont.fill cs st' st'' → Frame us cont.fill (c :: cs) st st'' := by
      intro st' st'' h1 h2 V n h
      obtain ⟨g1, g2⟩ := h c (by simp)
      rw [h2 V n fun c' hc' => h c' (by simp [hc']), h1 V n g1 g2]
    unfold cellsLoop
    rcases placeCell_fresh hK hI st c (hfr c (by simp)).1 with ⟨s, s', e, hs⟩ | ⟨e, hs⟩ | e
    · rw [e]
      have hset : ∀ V n, ¬ (V = cont.fill ∧ n = c.name) → (∀ W, c.fill = some W → ¬ Nests us W V) → st.set cont.fill c.name s' V n = st V n :=
        fun V n h _ => st.set_ne s' h
      have hleaf : c.fill = none ∨ d = 0 → ∃ o, (do
          let o ← cellsLoop K levelMax rec cont cs (st.set cont.fill c.name s')
          (.ok ⟨⟨[], c.name, s⟩ :: o.leaves, [] ++ o.fails, o.shapes⟩ : R (Out P))) = .ok o ∧ CorrectC us d cont.tr I B (c :: cs) o.leaves o.fails ∧
            Frame us cont.fill (c :: cs) st o.shapes := by
        intro hl
        obtain ⟨o, h1, h2, h3⟩ := cellsLoop_spec hK wn once pg B levelMax rec cont full hfull ht d hd I hI hrec cs _ (fun x hx => hsub x (by simp [hx])) hnd'
          (hnext _ hset)
        exact ⟨⟨⟨[], c.name, s⟩ :: o.leaves, [] ++ o.fails, o.shapes⟩, by simp only [h1, bind, Except.bind], correct_cons hnc (correct_leaf hl hs) h2,
          hframe _ _ hset h3⟩
      cases hfill : c.fill with
      | none => exact hleaf (.inl hfill)
      | some V =>
        simp only
        by_cases hlev : (cont.level : Int) + 1 > levelMax
        · rw [if_pos hlev]
          exact hleaf (.inr (by omega))
        · rw [if_neg hlev]
          have hfb : FilledBy us cont.fill c V := ⟨full, hfull, hc, hfill⟩
          obtain ⟨t1, t2⟩ := nextTR_spec pg hfb ht
          obtain ⟨u, vs, h1, h2, h3, h4⟩ := hrec ⟨some c.name, V, compose cont.tr c.place, some s, cont.externalBox, cont.level + 1⟩
            (st.set cont.fill c.name s') (d - 1) (fun p => I p ∧ moved cont.tr c.region p) c (by omega) hfb t2 (by simp only; omega)
            ⟨fun p h1 h2 => hs.covers p h1.2 h1.1 h2, fun ⟨q, hq1, hq2⟩ p hp => ⟨hs.clipped ⟨q, hq1.2, hq1.1, hq2⟩ p hp, hs.inside p hp⟩⟩ (by
              intro W n hN
              rw [st.set_ne]
              · exact (hfr c (by simp)).2 V hfill W n hN
              · rintro ⟨rfl, -⟩
                have g1 := hN.rank_le wn
                have g2 := wn.nested _ _ _ hfb
                simp only at g1
                omega)
          have hset' : ∀ W n, ¬ (W = cont.fill ∧ n = c.name) → (∀ X, c.fill = some X → ¬ Nests us X W) → u.shapes W n = st W n := by
            intro W n g1 g2
            rw [h4 W n (g2 V hfill), hset W n g1 g2]
          obtain ⟨o, k1, k2, k3⟩ := cellsLoop_spec hK wn once pg B levelMax rec cont full hfull ht d hd I hI hrec cs u.shapes (fun x hx => hsub x (by simp [hx])) hnd'
            (hnext _ hset')
          refine ⟨⟨u.leaves.map (fun l => ⟨c.name :: l.path, l.name, l.shape⟩) ++ o.leaves, [] ++ u.fails ++ o.fails, o.shapes⟩,
            by simp only [t1, h1, k1, bind, Except.bind], ?_, hframe _ _ hset' k3⟩
          have hd1 : d = (d - 1) + 1 := by omega
          have := correct_into (d := d - 1) hfill h2 h3
          rw [← hd1] at this
          exact correct_cons hnc this k2
    · rw [e]
      obtain ⟨o, h1, h2, h3⟩ := cellsLoop_spec hK wn once pg B levelMax rec cont full hfull ht d hd I hI hrec cs st (fun x hx => hsub x (by simp [hx])) hnd'
        (hnext _ fun _ _ _ _ => rfl)
      exact ⟨⟨o.leaves, [] ++ o.fails, o.shapes⟩, by simp only [h1, bind, Except.bind], correct_cons hnc (correct_empty hs) h2, hframe _ _ (fun _ _ _ _ => rfl) h3⟩
    · rw [e]
      obtain ⟨o, h1, h2, h3⟩ := cellsLoop_spec hK wn once pg B levelMax rec cont full hfull ht d hd I hI hrec cs st (fun x hx => hsub x (by simp [hx])) hnd'
        (hnext _ fun _ _ _ _ => rfl)
      exact ⟨⟨o.leaves, [c.name] ++ o.fails, o.shapes⟩, by simp only [h1, bind, Except.bind], correct_cons hnc correct_failed h2, hframe _ _ (fun _ _ _ _ => rfl) h3⟩

theorem nestsIn_cons {U V W k : Nat} {c : PCell P} (h : FilledBy us U c V) (h2 : NestsIn us V W k) : NestsIn us U W (k + 1) := by
  induction h2 with
  | refl => exact .step .refl h
  | step _ hf ih => exact .step ih hf

theorem buildCells_spec {K : Kernel P} (hK : K.Lawful) (wn : WellNested us rank) (once : FilledOnce us) {placed : Nat → Prop} (pg : PlacesGiven us placed)
    (B : P → Prop) (levelMax : Int) : ∀ (f : Nat) (cont : Container P) (st : Shapes P) (d : Nat) (I : P → Prop) (cs : List (PCell P)),
    rank cont.fill < f → us cont.fill = some cs → (cont.tr ≠ none → placed cont.fill) → d = (levelMax - cont.level).toNat → Holds cont I B →
    (∀ V n, Nests us cont.fill V → st V n = none) → ClosedTo us cont.fill d →
    ∃ o, buildCells K us levelMax f cont st = .ok o ∧ CorrectC us d cont.tr I B cs o.leaves o.fails ∧
      ∀ V n, ¬ Nests us cont.fill V → o.shapes V n = st V n
  | 0, _, _, _, _, _, h, _, _, _, _, _, _ => by omega
  | f + 1, cont, st, d, I, cs, hf, hcs, ht, hd, hI, hst, hcl => by
    obtain ⟨o, h1, h2, h3⟩ := cellsLoop_spec hK wn once pg B levelMax (buildCells K us levelMax f) cont cs hcs ht d hd I hI (by
      intro cont' st' e I' c hde hfb ht' he hI' hst'
      obtain ⟨vs, hvs⟩ := hcl _ 1 (by omega) (.step .refl hfb)
      obtain ⟨o, g1, g2, g3⟩ := buildCells_spec hK wn once pg B levelMax f cont' st' e I' vs (by have := wn.nested _ _ _ hfb; omega) hvs ht' he hI' hst'
        (fun V k hk hV => hcl V (k + 1) (by omega) (nestsIn_cons hfb hV))
      exact ⟨o, vs, g1, hvs, g2, g3⟩) cs st (fun _ h => h) (wn.names _ _ hcs) (by
      intro c hc
      refine ⟨hst _ _ .refl, fun W hW V n hN => hst V n ?_⟩
      exact (Nests.step .refl ⟨cs, hcs, hc, hW⟩).trans hN)
    refine ⟨o, ?_, h2, ?_⟩
    · unfold buildCells
      rw [hcs]
      exact h1
    · intro V n hV
      apply h3
      intro c hc
      refine ⟨?_, fun W hW hN => hV ((Nests.step .refl ⟨cs, hcs, hc, hW⟩).trans hN)⟩
      rintro ⟨rfl, -⟩
      exact hV .refl

theorem CorrectC.right {d U : Nat} {G : Option (Motion P)} {I B : P → Prop} {cs : List (PCell P)} {ls : List (Leaf P)} {fl : List Nat} (hU : us U = some cs)
    (h : CorrectC us d G I B cs ls fl) : RightSolids us d U G I B ls fl := by
  refine ⟨h.nodup, ?_, ?_⟩
  · intro l hl
    obtain ⟨c₀, hc₀, c, G', I', h1, h2, h3⟩ := h.sound l hl
    exact ⟨c, G', I', at_iff.2 ⟨cs, hU, c₀, hc₀, h1⟩, h2, h3⟩
  · intro path c G' I' hat hne
    obtain ⟨cs', hU', c₀, hc₀, h1⟩ := at_iff.1 hat
    rw [hU] at hU'
    cases hU'
    exact h.complete c₀ hc₀ path c G' I' h1 hne

/-! ### the depth -/

theorem at_congr {us' : Universes P} {d U : Nat} {G : Option (Motion P)} {I : P → Prop} {path : List Nat} {c : PCell P} {G' : Option (Motion P)}
    {I' : P → Prop} (h : At us d U G I path c G' I') (he : ∀ V k, k ≤ d → NestsIn us U V k → us' V = us V) : At us' d U G I path c G' I' := by
  induction h with
  | leaf h1 h2 h3 => exact .leaf (by rw [he _ 0 (by omega) .refl]; exact h1) h2 h3
  | into h1 h2 h3 _ ih =>
    refine .into (by rw [he _ 0 (by omega) .refl]; exact h1) h2 h3 (ih fun V k hk hV => he V (k + 1) (by omega) (nestsIn_cons ⟨_, h1, h2, h3⟩ hV))

theorem at_more {d U : Nat} {G : Option (Motion P)} {I : P → Prop} {path : List Nat} {c : PCell P} {G' : Option (Motion P)} {I' : P → Prop}
    (h : At us d U G I path c G' I') (hn : ∀ V, ¬ NestsIn us U V (d + 1)) (D : Nat) (hD : d ≤ D) : At us D U G I path c G' I' := by
  induction h generalizing D with
  | leaf h1 h2 h3 =>
    refine .leaf h1 h2 (.inl ?_)
    rcases h3 with h3 | rfl
    · exact h3
    · rename_i c _ _
      cases hc : c.fill with
      | none => rfl
      | some V => exact absurd (.step .refl ⟨_, h1, h2, hc⟩) (hn V)
  | into h1 h2 h3 _ ih =>
    cases D with
    | zero => omega
    | succ D => exact .into h1 h2 h3 (ih (fun V hV => hn V (nestsIn_cons ⟨_, h1, h2, h3⟩ hV)) D (by omega))

theorem at_less {D U : Nat} {G : Option (Motion P)} {I : P → Prop} {path : List Nat} {c : PCell P} {G' : Option (Motion P)} {I' : P → Prop}
    (h : At us D U G I path c G' I') (d : Nat) (hn : ∀ V, ¬ NestsIn us U V (d + 1)) (hD : d ≤ D) : At us d U G I path c G' I' := by
  induction h generalizing d with
  | leaf h1 h2 h3 =>
    rcases h3 with h3 | rfl
    · exact .leaf h1 h2 (.inl h3)
    · exact .leaf h1 h2 (.inr (by omega))
  | into h1 h2 h3 _ ih =>
    cases d with
    | zero => exact absurd (.step .refl ⟨_, h1, h2, h3⟩) (hn _)
    | succ d => exact .into h1 h2 h3 (ih d (fun V hV => hn V (nestsIn_cons ⟨_, h1, h2, h3⟩ hV)) (by omega))

theorem RightSolids.congr {us' : Universes P} {d d' U : Nat} {G : Option (Motion P)} {I B : P → Prop} {ls : List (Leaf P)} {fl : List Nat}
    (h : RightSolids us d U G I B ls fl) (he : ∀ path c G' I', At us d U G I path c G' I' ↔ At us' d' U G I path c G' I') :
    RightSolids us' d' U G I B ls fl := by
  refine ⟨h.nodup, ?_, ?_⟩
  · intro l hl
    obtain ⟨c, G', I', h1, h2⟩ := h.sound l hl
    exact ⟨c, G', I', (he _ _ _ _).1 h1, h2⟩
  · intro path c G' I' hat
    exact h.complete path c G' I' ((he _ _ _ _).2 hat)

end
end Geouned.Rev
