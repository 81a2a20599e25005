import Verif.Bool.Lemmas4
import Verif.Rev.Solid
/-! Helper lemmas: parts of a cell given by one sequence of surface numbers. -/
namespace Geouned.Rev.Solid

variable {α S Bx Sh : Type}

/-- the point is in one of the parts -/
def inP (mem : S → α → Prop) (ps : List (Part S)) (x : α) : Prop := ∃ p ∈ ps, mem p.solid x

/-- the point is in one of the solids -/
def inS (mem : S → α → Prop) (l : List S) (x : α) : Prop := ∃ s ∈ l, mem s x

/-- what is known of the part is right, for the surfaces of `F` -/
def KnownOK (K : Kernel α S Bx Sh) (mem : S → α → Prop) (F : Nat → Prop) (p : Part S) : Prop :=
  ∀ k, F k → ∀ v, p.known k = some v → ∃ b, v = some b ∧ ∀ x, mem p.solid x → K.side k x = b

@[simp] theorem inP_nil {mem : S → α → Prop} {x : α} : inP mem [] x ↔ False := by simp [inP]
@[simp] theorem inP_cons {mem : S → α → Prop} {p : Part S} {ps : List (Part S)} {x : α} :
    inP mem (p :: ps) x ↔ mem p.solid x ∨ inP mem ps x := by simp [inP]
@[simp] theorem inP_append {mem : S → α → Prop} {ps qs : List (Part S)} {x : α} :
    inP mem (ps ++ qs) x ↔ inP mem ps x ∨ inP mem qs x := by
  simp only [inP, List.mem_append]
  constructor
  · rintro ⟨p, h | h, h'⟩
    · exact .inl ⟨p, h, h'⟩
    · exact .inr ⟨p, h, h'⟩
  · rintro (⟨p, h, h'⟩ | ⟨p, h, h'⟩)
    · exact ⟨p, .inl h, h'⟩
    · exact ⟨p, .inr h, h'⟩
@[simp] theorem inS_nil {mem : S → α → Prop} {x : α} : inS mem [] x ↔ False := by simp [inS]
@[simp] theorem inS_cons {mem : S → α → Prop} {s : S} {l : List S} {x : α} :
    inS mem (s :: l) x ↔ mem s x ∨ inS mem l x := by simp [inS]
@[simp] theorem inS_append {mem : S → α → Prop} {l m : List S} {x : α} :
    inS mem (l ++ m) x ↔ inS mem l x ∨ inS mem m x := by
  simp only [inS, List.mem_append]
  constructor
  · rintro ⟨p, h | h, h'⟩
    · exact .inl ⟨p, h, h'⟩
    · exact .inr ⟨p, h, h'⟩
  · rintro (⟨p, h, h'⟩ | ⟨p, h, h'⟩)
    · exact ⟨p, .inl h, h'⟩
    · exact ⟨p, .inr h, h'⟩

/-! ### evaluate -/

theorem evaluateL_sound {vs : Known} {σ : Side} {op : Op} : ∀ (es : List Seq) (nv : Bool) (b : Bool), AllInt es →
    (∀ k v, Seq.OccursL k es → vs k = some v → v = some (σ k)) → evaluateL vs op nv es = some b →
    (nv = false ∨ b = !(op == .and)) ∧ semL op σ es = b := by
  intro es
  induction es with
  | nil =>
    intro nv b _ _ h
    simp only [evaluateL] at h
    split at h
    · simp at h
    · next hn =>
      simp only [Option.some.injEq] at h
      subst h
      cases op <;> simp_all [semL, Op.app, Op.neutral]
  | cons e es ih =>
    intro nv b hi hk h
    obtain ⟨n, rfl⟩ := hi e (by simp)
    have hi' : AllInt es := fun e he => hi e (by simp [he])
    have hk' : ∀ k v, Seq.OccursL k es → vs k = some v → v = some (σ k) := fun k v ho => hk k v (.inr ho)
    have hl : ∀ v, litVal vs n = some v → lit σ n = v := by
      intro v hv
      simp only [litVal] at hv
      split at hv
      · next b hb =>
        have := hk n.natAbs _ (.inl rfl) hb
        simp only [Option.some.injEq] at this hv
        simp only [lit, ← this]; exact hv
      · simp at hv
    simp only [evaluateL, evaluate] at h
    split at h
    · obtain ⟨h1, h2⟩ := ih true b hi' hk' h
      simp only [Bool.true_eq_false, false_or] at h1
      refine ⟨.inr h1, ?_⟩
      subst h1
      cases op <;> simp_all [semL, Op.app, Op.neutral]
    · next v hv =>
      have hv' := hl v hv
      split at h
      · next hc =>
        simp at hc h; subst h; obtain ⟨rfl, rfl⟩ := hc
        simp [semL, hv', Op.app, Op.neutral]
      · next hc =>
        split at h
        · next hd =>
          simp at hd h; subst h; obtain ⟨rfl, rfl⟩ := hd
          simp [semL, hv', Op.app, Op.neutral]
        · next hd =>
          obtain ⟨h1, h2⟩ := ih nv b hi' hk' h
          refine ⟨h1, ?_⟩
          cases op <;> cases v <;> simp_all [semL, Op.app, Op.neutral]

theorem evaluateL_known {vs : Known} {op : Op} : ∀ (es : List Seq), AllInt es →
    (∀ k, Seq.OccursL k es → ∃ b, vs k = some (some b)) → evaluateL vs op false es ≠ none := by
  intro es
  induction es with
  | nil => intro _ _; simp [evaluateL]
  | cons e es ih =>
    intro hi hk
    obtain ⟨n, rfl⟩ := hi e (by simp)
    obtain ⟨b, hb⟩ := hk n.natAbs (.inl rfl)
    have ih' := ih (fun e he => hi e (by simp [he])) (fun k ho => hk k (.inr ho))
    simp only [evaluateL, evaluate, litVal, hb]
    generalize (if n < 0 then !b else b) = w
    split
    · simp
    · split
      · simp
      · exact ih'

/-- a definition of level 0: a list of surface numbers -/
def Leaf (d : Seq) : Prop := ∃ op es, d = .lst op 0 es ∧ AllInt es

theorem evaluate_sound {vs : Known} {σ : Side} {d : Seq} {b : Bool} (hd : Leaf d)
    (hk : ∀ k v, d.Occurs k → vs k = some v → v = some (σ k)) (h : evaluate vs d = some b) : d.sem σ = b := by
  obtain ⟨op, es, rfl, hi⟩ := hd
  simp only [evaluate] at h
  rw [sem_lst]
  exact (evaluateL_sound es false b hi hk h).2

theorem evaluate_known {vs : Known} {d : Seq} (hd : Leaf d) (hk : ∀ k, d.Occurs k → ∃ b, vs k = some (some b)) :
    evaluate vs d ≠ none := by
  obtain ⟨op, es, rfl, hi⟩ := hd
  simp only [evaluate]
  exact evaluateL_known es hi hk

/-! ### splitting -/

section
variable {K : Kernel α S Bx Sh} {mem : S → α → Prop} {on : Nat → α → Prop} {inBox : Bx → α → Prop}

theorem KnownOK.sub {F : Nat → Prop} {p : Part S} {s : S} {o : Ori} (h : KnownOK K mem F p) (hs : ∀ x, mem s x → mem p.solid x) :
    KnownOK K mem F ⟨s, p.known, o⟩ := by
  intro k hk v hv
  obtain ⟨b, h1, h2⟩ := h k hk v hv
  exact ⟨b, h1, fun x hx => h2 x (hs x hx)⟩

theorem KnownOK.update {F : Nat → Prop} {p : Part S} {s : S} {o : Ori} {k : Nat} {q : α} (h : KnownOK K mem F p)
    (hs : ∀ x, mem s x → mem p.solid x) (ho : OneSided K mem k s) (hq : mem s q) :
    KnownOK K mem F ⟨s, update k (K.side k q) p.known, o⟩ := by
  intro j hj v hv
  simp only [Solid.update] at hv
  split at hv
  · next w hw =>
    obtain ⟨b, h1, h2⟩ := h j hj w hw
    simp only [Option.some.injEq] at hv
    exact ⟨b, hv ▸ h1, fun x hx => h2 x (hs x hx)⟩
  · split at hv
    · next hjk =>
      subst hjk
      simp only [Option.some.injEq] at hv
      exact ⟨_, hv.symm, fun x hx => ho x q hx hq⟩
    · simp at hv

/-- what is right about the result of splitting the parts `bs`: `F` are the surfaces looked at afterwards, `ks` the surfaces that cut -/
structure SplitOK (K : Kernel α S Bx Sh) (mem : S → α → Prop) (on : Nat → α → Prop) (F : Nat → Prop) (d : Seq) (ks : List Nat)
    (bs : List (Part S)) (r : Split S) : Prop where
  full_known : ∀ p ∈ r.full, KnownOK K mem F p
  cut_known : ∀ p ∈ r.cut, KnownOK K mem F p
  full_in : ∀ p ∈ r.full, ∀ x, mem p.solid x → In K d x
  full_sub : ∀ p ∈ r.full, ∃ b ∈ bs, (∀ x, mem p.solid x → mem b.solid x) ∧ ∀ j, j ∉ ks → p.known j = b.known j
  cut_sub : ∀ p ∈ r.cut, ∃ b ∈ bs, (∀ x, mem p.solid x → mem b.solid x) ∧ ∀ j, j ∉ ks → p.known j = b.known j
  cut_keys : ∀ p ∈ r.cut, ∀ j, (j ∈ ks ∨ ∀ b ∈ bs, b.known j ≠ none) → p.known j ≠ none
  cut_none : ∀ p ∈ r.cut, (ks = [] ∧ p ∈ bs) ∨ evaluate p.known d = none
  fills : ∀ x, inP mem bs x → (∀ k ∈ ks, ¬ on k x) → ¬ inS mem r.lost x → In K d x → inP mem r.full x ∨ inP mem r.cut x
  fwd : (∀ b ∈ bs, b.ori = .fwd) → (∀ p ∈ r.full, p.ori = .fwd) ∧ ∀ p ∈ r.cut, p.ori = .fwd

theorem update_frame {k j : Nat} {v : Bool} {kn : Known} (h : j ≠ k) : update k v kn j = kn j := by
  simp only [Solid.update]
  split
  · next h' => exact h'.symm
  · next h' => simp [h, h']

theorem place_ok {F : Nat → Prop} {d : Seq} {o : Ori} {b : Part S} {k : Nat} {s : S} (hR : Right K mem on inBox) (hd : Leaf d)
    (hF : ∀ v, d.Occurs v → F v) (hb : KnownOK K mem F b) (hs : ∀ x, mem s x → mem b.solid x) (ho : OneSided K mem k s) :
    (∀ p ∈ (place K d o b.known k s).full, KnownOK K mem F p ∧ (∀ x, mem p.solid x → In K d x) ∧ p.solid = s ∧ p.ori = o ∧
      ∀ j, j ≠ k → p.known j = b.known j) ∧
    (∀ p ∈ (place K d o b.known k s).cut, KnownOK K mem F p ∧ p.solid = s ∧ p.ori = o ∧ evaluate p.known d = none ∧
      p.known k ≠ none ∧ (∀ j, b.known j ≠ none → p.known j ≠ none) ∧ ∀ j, j ≠ k → p.known j = b.known j) ∧
    (∀ x, mem s x → ¬ inS mem (place K d o b.known k s).lost x → In K d x →
      inP mem (place K d o b.known k s).full x ∨ inP mem (place K d o b.known k s).cut x) := by
  unfold place
  split
  · refine ⟨by simp, by simp, fun x hx hn => absurd ?_ hn⟩
    simpa using hx
  · split
    · refine ⟨by simp, by simp, fun x hx hn => absurd ?_ hn⟩
      simpa using hx
    · next q hq =>
      have hmq := hR.inner s q hq
      have hK := KnownOK.update (o := o) hb hs ho hmq
      have hev : ∀ v, evaluate (Solid.update k (K.side k q) b.known) d = some v → ∀ x, mem s x → d.sem (fun k => K.side k x) = v := by
        intro v hv x hx
        refine evaluate_sound hd ?_ hv
        intro j w hj hw
        obtain ⟨c, h1, h2⟩ := hK j (hF j hj) w hw
        rw [h1, h2 x hx]
      dsimp only
      split
      · next he =>
        refine ⟨?_, by simp, ?_⟩
        · intro p hp
          simp only [List.mem_singleton] at hp
          subst hp
          exact ⟨hK, fun x hx => hev true he x hx, rfl, rfl, fun j hj => update_frame hj⟩
        · intro x hx _ _
          exact .inl (by simpa using hx)
      · next he =>
        refine ⟨by simp, ?_, ?_⟩
        · intro p hp
          simp only [List.mem_singleton] at hp
          subst hp
          refine ⟨hK, rfl, rfl, he, ?_, ?_, fun j hj => update_frame hj⟩
          · simp only [Solid.update]; split <;> simp
          · intro j hj
            simp only [Solid.update]
            split
            · simp
            · next h => exact absurd h hj
        · intro x hx _ _
          exact .inr (by simpa using hx)
      · next he =>
        refine ⟨by simp [Split.nil], by simp [Split.nil], ?_⟩
        intro x hx _ hin
        have := hev false he x hx
        simp [In, this] at hin

theorem pieces_ok {k : Nat} {bx : Bx} {s : S} (hR : Right K mem on inBox) (hin : ∀ x, mem s x → inBox bx x) :
    (∀ t ∈ pieces K k bx s, OneSided K mem k t ∧ ∀ x, mem t x → mem s x) ∧
    ∀ x, mem s x → ¬ on k x → ∃ t ∈ pieces K k bx s, mem t x := by
  unfold pieces
  split
  · next h =>
    have := hR.shape_none s k bx h hin
    simp only [List.mem_singleton, forall_eq, exists_eq_left]
    exact ⟨⟨this, fun _ h => h⟩, fun _ h _ => h⟩
  · next sh h =>
    split
    · next hs =>
      have := hR.slice_none s k bx sh h hin (.inl hs)
      simp only [List.mem_singleton, forall_eq, exists_eq_left]
      exact ⟨⟨this, fun _ h => h⟩, fun _ h _ => h⟩
    · next hs =>
      have := hR.slice_none s k bx sh h hin (.inr hs)
      simp only [List.mem_singleton, forall_eq, exists_eq_left]
      exact ⟨⟨this, fun _ h => h⟩, fun _ h _ => h⟩
    · next l hl hs =>
      exact hR.slice_some s k bx sh l h hin hs hl

theorem placeL_ok {F : Nat → Prop} {d : Seq} {o : Ori} {b : Part S} {k : Nat} (hR : Right K mem on inBox) (hd : Leaf d)
    (hF : ∀ v, d.Occurs v → F v) (hb : KnownOK K mem F b) : ∀ (ss : List S),
    (∀ s ∈ ss, OneSided K mem k s ∧ ∀ x, mem s x → mem b.solid x) →
    (∀ p ∈ (placeL K d o b.known k ss).full, KnownOK K mem F p ∧ (∀ x, mem p.solid x → In K d x) ∧
      (∀ x, mem p.solid x → mem b.solid x) ∧ p.ori = o ∧ ∀ j, j ≠ k → p.known j = b.known j) ∧
    (∀ p ∈ (placeL K d o b.known k ss).cut, KnownOK K mem F p ∧ (∀ x, mem p.solid x → mem b.solid x) ∧ p.ori = o ∧
      evaluate p.known d = none ∧ p.known k ≠ none ∧ (∀ j, b.known j ≠ none → p.known j ≠ none) ∧
      ∀ j, j ≠ k → p.known j = b.known j) ∧
    (∀ x, (∃ s ∈ ss, mem s x) → ¬ inS mem (placeL K d o b.known k ss).lost x → In K d x →
      inP mem (placeL K d o b.known k ss).full x ∨ inP mem (placeL K d o b.known k ss).cut x) := by
  intro ss
  induction ss with
  | nil => intro _; simp [placeL, Split.nil]
  | cons s ss ih =>
    intro hs
    obtain ⟨i1, i2, i3⟩ := ih (fun t ht => hs t (by simp [ht]))
    obtain ⟨ho, hsub⟩ := hs s (by simp)
    obtain ⟨j1, j2, j3⟩ := place_ok (o := o) hR hd hF hb hsub ho
    simp only [placeL, Split.app]
    refine ⟨?_, ?_, ?_⟩
    · intro p hp
      rcases List.mem_append.1 hp with hp | hp
      · obtain ⟨a1, a2, a3, a4⟩ := j1 p hp
        exact ⟨a1, a2, by rw [a3]; exact hsub, a4⟩
      · exact i1 p hp
    · intro p hp
      rcases List.mem_append.1 hp with hp | hp
      · obtain ⟨a1, a3, a4, a5⟩ := j2 p hp
        exact ⟨a1, by rw [a3]; exact hsub, a4, a5⟩
      · exact i2 p hp
    · intro x hx hl hin
      simp only [inS_append, not_or] at hl
      simp only [inP_append]
      obtain ⟨t, ht, hm⟩ := hx
      rcases List.mem_cons.1 ht with rfl | ht
      · rcases j3 x hm hl.1 hin with h | h
        · exact .inl (.inl h)
        · exact .inr (.inl h)
      · rcases i3 x ⟨t, ht, hm⟩ hl.2 hin with h | h
        · exact .inl (.inr h)
        · exact .inr (.inr h)

theorem splitOri_fwd {a b : Ori} (h : b = .fwd) : splitOri a b = .fwd := by
  subst h; cases a <;> simp [splitOri]

theorem splitOne_ok {F : Nat → Prop} {d : Seq} {o : Ori} {bx : Bx} {b : Part S} {k : Nat} (hR : Right K mem on inBox) (hd : Leaf d)
    (hF : ∀ v, d.Occurs v → F v) (hb : KnownOK K mem F b) (hin : ∀ x, mem b.solid x → inBox bx x) :
    SplitOK K mem on F d [k] [b] (splitOne K d o bx k b) := by
  unfold splitOne
  split
  · exact
      { full_known := by simp, cut_known := by simp, full_in := by simp, full_sub := by simp, cut_sub := by simp,
        cut_keys := by simp, cut_none := by simp, fwd := by simp
        fills := fun x hx _ hl => absurd (by simpa using hx) hl }
  · obtain ⟨p1, p2⟩ := pieces_ok (k := k) hR hin
    obtain ⟨i1, i2, i3⟩ := placeL_ok (o := splitOri o b.ori) hR hd hF hb _ p1
    exact
      { full_known := fun p hp => (i1 p hp).1
        cut_known := fun p hp => (i2 p hp).1
        full_in := fun p hp => (i1 p hp).2.1
        full_sub := fun p hp => ⟨b, by simp, (i1 p hp).2.2.1, fun j hj => (i1 p hp).2.2.2.2 j (by simpa using hj)⟩
        cut_sub := fun p hp => ⟨b, by simp, (i2 p hp).2.1, fun j hj => (i2 p hp).2.2.2.2.2.2 j (by simpa using hj)⟩
        cut_keys := by
          intro p hp j hj
          obtain ⟨-, -, -, -, a1, a2, -⟩ := i2 p hp
          rcases hj with hj | hj
          · simp only [List.mem_singleton] at hj; subst hj; exact a1
          · exact a2 j (hj b (by simp))
        cut_none := fun p hp => .inr (i2 p hp).2.2.2.1
        fills := by
          intro x hx hk hl hi
          obtain ⟨t, ht, hm⟩ := p2 x (by simpa using hx) (hk k (by simp))
          exact i3 x ⟨t, ht, hm⟩ hl hi
        fwd := by
          intro h
          have := splitOri_fwd (a := o) (h b (by simp))
          exact ⟨fun p hp => (i1 p hp).2.2.2.1.trans this, fun p hp => (i2 p hp).2.2.1.trans this⟩ }

theorem splitL_ok {F : Nat → Prop} {d : Seq} {o : Ori} {bx : Bx} {k : Nat} (hR : Right K mem on inBox) (hd : Leaf d)
    (hF : ∀ v, d.Occurs v → F v) : ∀ bs : List (Part S), (∀ b ∈ bs, KnownOK K mem F b) →
    (∀ b ∈ bs, ∀ x, mem b.solid x → inBox bx x) → SplitOK K mem on F d [k] bs (splitL K d o bx k bs) := by
  intro bs
  induction bs with
  | nil =>
    intro _ _
    exact
      { full_known := by simp [splitL, Split.nil], cut_known := by simp [splitL, Split.nil], full_in := by simp [splitL, Split.nil],
        full_sub := by simp [splitL, Split.nil], cut_sub := by simp [splitL, Split.nil], cut_keys := by simp [splitL, Split.nil],
        cut_none := by simp [splitL, Split.nil], fwd := by simp [splitL, Split.nil], fills := by simp }
  | cons b bs ih =>
    intro hk hin
    have i := ih (fun c hc => hk c (by simp [hc])) (fun c hc => hin c (by simp [hc]))
    have j := splitOne_ok (k := k) (o := o) hR hd hF (hk b (by simp)) (hin b (by simp))
    simp only [splitL, Split.app]
    exact
      { full_known := fun p hp => (List.mem_append.1 hp).elim (j.full_known p) (i.full_known p)
        cut_known := fun p hp => (List.mem_append.1 hp).elim (j.cut_known p) (i.cut_known p)
        full_in := fun p hp => (List.mem_append.1 hp).elim (j.full_in p) (i.full_in p)
        full_sub := by
          intro p hp
          rcases List.mem_append.1 hp with hp | hp
          · obtain ⟨c, hc, h⟩ := j.full_sub p hp
            simp only [List.mem_singleton] at hc
            exact ⟨b, by simp, hc ▸ h⟩
          · obtain ⟨c, hc, h⟩ := i.full_sub p hp
            exact ⟨c, by simp [hc], h⟩
        cut_sub := by
          intro p hp
          rcases List.mem_append.1 hp with hp | hp
          · obtain ⟨c, hc, h⟩ := j.cut_sub p hp
            simp only [List.mem_singleton] at hc
            exact ⟨b, by simp, hc ▸ h⟩
          · obtain ⟨c, hc, h⟩ := i.cut_sub p hp
            exact ⟨c, by simp [hc], h⟩
        cut_keys := by
          intro p hp n hn
          rcases List.mem_append.1 hp with hp | hp
          · exact j.cut_keys p hp n (hn.imp id (fun h c hc => h c (by simp at hc; simp [hc])))
          · exact i.cut_keys p hp n (hn.imp id (fun h c hc => h c (by simp [hc])))
        cut_none := by
          intro p hp
          rcases List.mem_append.1 hp with hp | hp
          · exact .inr ((j.cut_none p hp).resolve_left (by simp))
          · exact .inr ((i.cut_none p hp).resolve_left (by simp))
        fills := by
          intro x hx hn hl hi
          simp only [inS_append, not_or] at hl
          simp only [inP_append]
          simp only [inP_cons] at hx
          rcases hx with hx | hx
          · rcases j.fills x (by simpa using hx) hn hl.1 hi with h | h
            · exact .inl (.inl h)
            · exact .inr (.inl h)
          · rcases i.fills x hx hn hl.2 hi with h | h
            · exact .inl (.inr h)
            · exact .inr (.inr h)
        fwd := by
          intro h
          obtain ⟨a1, a2⟩ := j.fwd (fun c hc => h c (by simp at hc; simp [hc]))
          obtain ⟨b1, b2⟩ := i.fwd (fun c hc => h c (by simp [hc]))
          exact ⟨fun p hp => (List.mem_append.1 hp).elim (a1 p) (b1 p), fun p hp => (List.mem_append.1 hp).elim (a2 p) (b2 p)⟩ }

/-- splitting what is left once more -/
theorem SplitOK.trans {F : Nat → Prop} {d : Seq} {ks js : List Nat} {bs : List (Part S)} {r r' : Split S}
    (h : SplitOK K mem on F d ks bs r) (h' : SplitOK K mem on F d js r.cut r') :
    SplitOK K mem on F d (ks ++ js) bs ⟨r.full ++ r'.full, r'.cut, r.lost ++ r'.lost⟩ where
  full_known := fun p hp => (List.mem_append.1 hp).elim (h.full_known p) (h'.full_known p)
  cut_known := h'.cut_known
  full_in := fun p hp => (List.mem_append.1 hp).elim (h.full_in p) (h'.full_in p)
  full_sub := by
    intro p hp
    rcases List.mem_append.1 hp with hp | hp
    · obtain ⟨b, hb, h1, h2⟩ := h.full_sub p hp
      exact ⟨b, hb, h1, fun j hj => h2 j (fun h => hj (by simp [h]))⟩
    · obtain ⟨q, hq, h1, h2⟩ := h'.full_sub p hp
      obtain ⟨b, hb, h3, h4⟩ := h.cut_sub q hq
      exact ⟨b, hb, fun x hx => h3 x (h1 x hx), fun j hj => (h2 j (fun h => hj (by simp [h]))).trans (h4 j (fun h => hj (by simp [h])))⟩
  cut_sub := by
    intro p hp
    obtain ⟨q, hq, h1, h2⟩ := h'.cut_sub p hp
    obtain ⟨b, hb, h3, h4⟩ := h.cut_sub q hq
    exact ⟨b, hb, fun x hx => h3 x (h1 x hx), fun j hj => (h2 j (fun h => hj (by simp [h]))).trans (h4 j (fun h => hj (by simp [h])))⟩
  cut_keys := by
    intro p hp n hn
    apply h'.cut_keys p hp n
    rcases hn with hn | hn
    · rcases List.mem_append.1 hn with hn | hn
      · exact .inr (fun q hq => h.cut_keys q hq n (.inl hn))
      · exact .inl hn
    · exact .inr (fun q hq => h.cut_keys q hq n (.inr hn))
  cut_none := by
    intro p hp
    rcases h'.cut_none p hp with ⟨rfl, hq⟩ | he
    · rcases h.cut_none p hq with ⟨rfl, hb⟩ | he
      · exact .inl ⟨rfl, hb⟩
      · exact .inr he
    · exact .inr he
  fills := by
    intro x hx hn hl hi
    simp only [inS_append, not_or] at hl
    simp only [inP_append]
    rcases h.fills x hx (fun k hk => hn k (by simp [hk])) hl.1 hi with a | a
    · exact .inl (.inl a)
    · rcases h'.fills x a (fun k hk => hn k (by simp [hk])) hl.2 hi with b | b
      · exact .inl (.inr b)
      · exact .inr b
  fwd := by
    intro hb
    obtain ⟨a1, a2⟩ := h.fwd hb
    obtain ⟨b1, b2⟩ := h'.fwd a2
    exact ⟨fun p hp => (List.mem_append.1 hp).elim (a1 p) (b1 p), b2⟩

theorem splitBy_ok {F : Nat → Prop} {d : Seq} {o : Ori} {bx : Bx} (hR : Right K mem on inBox) (hd : Leaf d)
    (hF : ∀ v, d.Occurs v → F v) : ∀ (ks : List Nat) (bs : List (Part S)), (∀ b ∈ bs, KnownOK K mem F b) →
    (∀ b ∈ bs, ∀ x, mem b.solid x → inBox bx x) → SplitOK K mem on F d ks bs (splitBy K d o bx ks bs) := by
  intro ks
  induction ks with
  | nil =>
    intro bs hk hin
    simp only [splitBy]
    exact
      { full_known := by simp, cut_known := hk, full_in := by simp, full_sub := by simp,
        cut_sub := fun p hp => ⟨p, hp, fun _ h => h, fun _ _ => rfl⟩
        cut_keys := fun p hp j hj => (hj.resolve_left (by simp)) p hp
        cut_none := fun p hp => .inl ⟨rfl, hp⟩
        fills := fun x hx _ _ _ => .inr hx
        fwd := fun h => ⟨by simp, h⟩ }
  | cons k ks ih =>
    intro bs hk hin
    have h := splitL_ok (k := k) (o := o) hR hd hF bs hk hin
    have hin' : ∀ b ∈ (splitL K d o bx k bs).cut, ∀ x, mem b.solid x → inBox bx x := by
      intro p hp x hx
      obtain ⟨b, hb, hs, -⟩ := h.cut_sub p hp
      exact hin b hb x (hs x hx)
    simp only [splitBy]
    split
    · next he =>
      have he' : (splitL K d o bx k bs).cut = [] := by simpa using he
      exact
        { full_known := h.full_known, cut_known := h.cut_known, full_in := h.full_in
          full_sub := by
            intro p hp
            obtain ⟨b, hb, h1, h2⟩ := h.full_sub p hp
            exact ⟨b, hb, h1, fun j hj => h2 j (fun h => hj (by simp at h; simp [h]))⟩
          cut_sub := by rw [he']; simp
          cut_keys := by rw [he']; simp
          cut_none := by rw [he']; simp
          fills := fun x hx hn hl hi => h.fills x hx (fun j hj => hn j (by simp at hj; simp [hj])) hl hi
          fwd := h.fwd }
    · exact h.trans (ih _ h.cut_known hin')

theorem splitAll_ok {F : Nat → Prop} {d : Seq} {o : Ori} {bx : Bx} {ks : List Nat} {b : Part S} (hR : Right K mem on inBox) (hd : Leaf d)
    (hF : ∀ v, d.Occurs v → F v) (hks : ∀ v, d.Occurs v → v ∈ ks) (hne : ks ≠ []) (hb : KnownOK K mem F b)
    (hin : ∀ x, mem b.solid x → inBox bx x) :
    let r := splitAll K d o bx ks b
    (∀ p ∈ r.full, KnownOK K mem F p ∧ (∀ x, mem p.solid x → mem b.solid x ∧ In K d x) ∧ ∀ j, j ∉ ks → p.known j = b.known j) ∧
    (∀ x, mem b.solid x → (∀ k ∈ ks, ¬ on k x) → ¬ inS mem r.lost x → In K d x → inP mem r.full x) ∧
    (b.ori = .fwd → ∀ p ∈ r.full, p.ori = .fwd) := by
  intro r
  have h1 := splitBy_ok (o := o) (bx := bx) hR hd hF (ks.filter K.isPlane) [b] (by simpa using hb) (by simpa using hin)
  have h2 := splitBy_ok (o := o) (bx := bx) hR hd hF (ks.filter (fun k => !K.isPlane k)) _ h1.cut_known (by
    intro p hp x hx
    obtain ⟨c, hc, hs, -⟩ := h1.cut_sub p hp
    simp only [List.mem_singleton] at hc
    subst hc
    exact hin x (hs x hx))
  have h : SplitOK K mem on F d (ks.filter K.isPlane ++ ks.filter (fun k => !K.isPlane k)) [b] r := h1.trans h2
  have hmem : ∀ v, v ∈ ks.filter K.isPlane ++ ks.filter (fun k => !K.isPlane k) ↔ v ∈ ks := by
    intro v
    simp only [List.mem_append, List.mem_filter]
    cases K.isPlane v <;> simp
  have hcut : ∀ p ∈ r.cut, False := by
    intro p hp
    rcases h.cut_none p hp with ⟨he, -⟩ | he
    · apply hne
      apply List.eq_nil_iff_forall_not_mem.2
      intro v hv
      have := (hmem v).2 hv
      rw [he] at this
      simp at this
    · refine evaluate_known hd ?_ he
      intro v hv
      have := h.cut_keys p hp v (.inl ((hmem v).2 (hks v hv)))
      cases hk : p.known v with
      | none => exact absurd hk this
      | some w =>
        obtain ⟨c, hc, -⟩ := h.cut_known p hp v (hF v hv) w hk
        exact ⟨c, by rw [hc]⟩
  refine ⟨?_, ?_, ?_⟩
  · intro p hp
    obtain ⟨c, hc, h3, h4⟩ := h.full_sub p hp
    simp only [List.mem_singleton] at hc
    subst hc
    exact ⟨h.full_known p hp, fun x hx => ⟨h3 x hx, h.full_in p hp x hx⟩, fun j hj => h4 j (fun h => hj ((hmem j).1 h))⟩
  · intro x hx hn hl hi
    rcases h.fills x (by simpa using hx) (fun k hk => hn k ((hmem k).1 hk)) hl hi with a | ⟨p, hp, -⟩
    · exact a
    · exact (hcut p hp).elim
  · intro hf
    exact (h.fwd (by simpa using hf)).1

end

end Geouned.Rev.Solid
