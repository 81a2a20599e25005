import Verif.Rev.SolidLemmas3
/-! Helper lemmas: nested definitions. -/
namespace Geouned.Rev.Solid

variable {α S Bx Sh : Type}

section
variable {K : Kernel α S Bx Sh} {mem : S → α → Prop} {on : Nat → α → Prop} {inBox : Bx → α → Prop}

/-- `filterparts` for parts that are not reversed -/
theorem filterParts_fwd {bx : Bx} {ori : Ori} {rb : Unit → Res S} : ∀ (ps : List (Part S)) (b : Bool), (∀ p ∈ ps, p.ori = .fwd) →
    ∃ part keep, filterParts K bx ori rb b ps = .ok (part, keep, []) ∧ (∀ p ∈ part, p ∈ ps) ∧
      (∀ p ∈ keep, p ∈ ps ∧ K.meet bx (K.box p.solid) = false ∧ ori = .rev) ∧
      ∀ p ∈ ps, p ∈ part ∨ p ∈ keep ∨ (K.meet bx (K.box p.solid) = false ∧ ori = .fwd) := by
  intro ps
  induction ps with
  | nil => intro b _; exact ⟨[], [], rfl, by simp, by simp, by simp⟩
  | cons p ps ih =>
    intro b hf
    obtain ⟨part, keep, h1, h2, h3, h4⟩ := ih b (fun q hq => hf q (by simp [hq]))
    have hp := hf p (by simp)
    by_cases hm : K.meet bx (K.box p.solid) = true
    · refine ⟨p :: part, keep, by simp [filterParts, hm, h1, bind, Except.bind], ?_, ?_, ?_⟩
      · intro q hq
        rcases List.mem_cons.1 hq with rfl | hq
        · simp
        · simp [h2 q hq]
      · intro q hq
        obtain ⟨a, b, c⟩ := h3 q hq
        exact ⟨by simp [a], b, c⟩
      · intro q hq
        rcases List.mem_cons.1 hq with rfl | hq
        · simp
        · rcases h4 q hq with h | h | h
          · exact .inl (by simp [h])
          · exact .inr (.inl h)
          · exact .inr (.inr h)
    · have hm' : K.meet bx (K.box p.solid) = false := by simpa using hm
      cases ori with
      | fwd =>
        refine ⟨part, keep, by simp [filterParts, hm', h1], fun q hq => by simp [h2 q hq], ?_, ?_⟩
        · intro q hq
          obtain ⟨a, b, c⟩ := h3 q hq
          simp at c
        · intro q hq
          rcases List.mem_cons.1 hq with rfl | hq
          · exact .inr (.inr ⟨hm', rfl⟩)
          · exact h4 q hq
      | rev =>
        refine ⟨part, p :: keep, by simp [filterParts, hm', h1, hp, bind, Except.bind], fun q hq => by simp [h2 q hq], ?_, ?_⟩
        · intro q hq
          rcases List.mem_cons.1 hq with rfl | hq
          · exact ⟨by simp, hm', rfl⟩
          · obtain ⟨a, b, c⟩ := h3 q hq
            exact ⟨by simp [a], b, rfl⟩
        · intro q hq
          rcases List.mem_cons.1 hq with rfl | hq
          · exact .inr (.inl (by simp))
          · rcases h4 q hq with h | h | h
            · exact .inl h
            · exact .inr (.inl (by simp [h]))
            · exact .inr (.inr h)

/-- the same with what the box says -/
theorem filterParts_ok {bx ext : Bx} {ori : Ori} {A : α → Prop} {rb : Unit → Res S} {ps : List (Part S)} (hR : Right K mem on inBox)
    (hs : BoxSays inBox ext A ⟨some bx, ori⟩) (hf : ∀ p ∈ ps, p.ori = .fwd) :
    ∃ part keep, filterParts K bx ori rb false ps = .ok (part, keep, []) ∧ (∀ p ∈ part, p ∈ ps) ∧ (∀ p ∈ keep, p ∈ ps) ∧
      (∀ x, inBox ext x → inP mem keep x → A x) ∧ ∀ x, inBox ext x → A x → inP mem ps x → inP mem part x ∨ inP mem keep x := by
  obtain ⟨part, keep, h1, h2, h3, h4⟩ := filterParts_fwd (K := K) (bx := bx) (ori := ori) (rb := rb) ps false hf
  refine ⟨part, keep, h1, h2, fun p hp => (h3 p hp).1, ?_, ?_⟩
  · rintro x hx ⟨p, hp, hm⟩
    obtain ⟨-, hmt, rfl⟩ := h3 p hp
    have hs' : ∀ x, inBox ext x → ¬ A x → inBox bx x := hs
    by_cases ha : A x
    · exact ha
    · exact absurd ⟨hs' x hx ha, hR.box _ x hm⟩ (hR.meet _ _ hmt x)
  · rintro x hx ha ⟨p, hp, hm⟩
    rcases h4 p hp with h | h | ⟨hmt, rfl⟩
    · exact .inl ⟨p, h, hm⟩
    · exact .inr ⟨p, h, hm⟩
    · have hs' : ∀ x, inBox ext x → A x → inBox bx x := hs
      exact absurd ⟨hs' x hx ha, hR.box _ x hm⟩ (hR.meet _ _ hmt x)

/-! ### joinBase -/

theorem joinKey_same {n : Nat} {v : Option (Option Bool)} : ∀ (ps : List (Part S)) (cur : Option (Option Bool)),
    (cur = v ∨ cur = none) → (∀ p ∈ ps, p.known n = v) → (cur = none → v = none ∨ ps ≠ []) → joinKey n cur false ps = v := by
  intro ps
  induction ps with
  | nil =>
    intro cur hc _ hne
    simp only [joinKey]
    rcases hc with h | h
    · exact h
    · rcases hne h with h' | h'
      · rw [h, h']
      · simp at h'
  | cons p ps ih =>
    intro cur hc hp hne
    have hpv := hp p (by simp)
    simp only [joinKey, hpv]
    cases v with
    | none =>
      exact ih cur hc (fun q hq => hp q (by simp [hq])) (fun _ => .inl rfl)
    | some w =>
      simp only [Bool.false_eq_true, if_false]
      rcases hc with rfl | rfl
      · simp only [if_true]
        exact ih _ (.inl rfl) (fun q hq => hp q (by simp [hq])) (by simp)
      · exact ih _ (.inl rfl) (fun q hq => hp q (by simp [hq])) (by simp)

theorem joinBase_ok (hR : Right K mem on inBox) {V : Nat → Prop} {known : Known} (ps : List (Part S)) (hk : ∀ p ∈ ps, ∀ j, ¬ V j → p.known j = known j)
    (hf : ∀ p ∈ ps, p.ori = .fwd) :
    (∀ x, inP mem (joinBase K ps).toList x ↔ inP mem ps x) ∧ (∀ q ∈ (joinBase K ps).toList, q.ori = .fwd ∧ (∀ j, ¬ V j → q.known j = known j)) := by
  cases ps with
  | nil => simp [joinBase]
  | cons p ps =>
    constructor
    · intro x
      simp only [joinBase, Option.toList, inP_cons, inP_nil, or_false]
      rw [hR.fuse _ (by simp)]
      constructor
      · rintro ⟨s, hs, hx⟩
        obtain ⟨q, hq, rfl⟩ := List.mem_map.1 hs
        rcases List.mem_cons.1 hq with rfl | hq
        · exact .inl hx
        · exact .inr ⟨q, hq, hx⟩
      · rintro (hx | ⟨q, hq, hx⟩)
        · exact ⟨_, by simp, hx⟩
        · exact ⟨q.solid, by simp; exact .inr ⟨q, hq, rfl⟩, hx⟩
    · intro q hq
      simp only [joinBase, Option.toList, List.mem_singleton] at hq
      subst hq
      refine ⟨?_, fun j hj => ?_⟩
      · have : (p :: ps).all (fun q => q.ori == .fwd) = true := by
          rw [List.all_eq_true]
          intro q hq
          rw [hf q hq]; rfl
        simp [this]
      · exact joinKey_same _ _ (.inr rfl) (fun q hq => hk q hq j hj) (fun _ => .inr (by simp))

theorem joinBase_in (hR : Right K mem on inBox) (ps : List (Part S)) (x : α) : inP mem (joinBase K ps).toList x ↔ inP mem ps x := by
  cases ps with
  | nil => simp [joinBase]
  | cons p ps =>
    simp only [joinBase, Option.toList, inP_cons, inP_nil, or_false]
    rw [hR.fuse _ (by simp)]
    constructor
    · rintro ⟨s, hs, hx⟩
      obtain ⟨q, hq, rfl⟩ := List.mem_map.1 hs
      rcases List.mem_cons.1 hq with rfl | hq
      · exact .inl hx
      · exact .inr ⟨q, hq, hx⟩
    · rintro (hx | ⟨q, hq, hx⟩)
      · exact ⟨_, by simp, hx⟩
      · exact ⟨q.solid, by simp; exact .inr ⟨q, hq, rfl⟩, hx⟩

/-! ### the claim -/

/-- what is right about the parts of a cell -/
structure DepthOK (K : Kernel α S Bx Sh) (mem : S → α → Prop) (on : Nat → α → Prop) (inBox : Bx → α → Prop) (c : Cell Bx)
    (base : Option (List (Part S))) (r : List (Part S) × List S) : Prop where
  frame : ∀ p ∈ r.1, From mem (· ∈ c.surfaces) base p
  known : ∀ F, (∀ v ∈ c.surfaces, F v) → BaseOK K mem F base → ¬ Joins c.definition → ∀ p ∈ r.1, KnownOK K mem F p
  sound : ∀ x, inBox c.ext x → inP mem r.1 x → In K c.definition x ∨ Area K c x
  complete : ∀ x, inBox c.ext x → (∀ v ∈ c.surfaces, ¬ on v x) → ¬ inS mem r.2 x → inBase mem base x → In K c.definition x →
    Area K c x → inP mem r.1 x
  fwd : ∀ p ∈ r.1, p.ori = .fwd

/-- a cell whose box has been computed for a list of parts -/
def BoundReady (K : Kernel α S Bx Sh) (c : Cell Bx) : Prop :=
  K.same c.plane.2 c.ext = true ∧ ∃ bx ori, K.boundBox c.plane.1 c.plane.2 100 = ⟨some bx, ori⟩ ∧ c.bound = some ⟨some bx, ori⟩

/-- what a cell and its base must be like -/
structure Ready (K : Kernel α S Bx Sh) (mem : S → α → Prop) (inBox : Bx → α → Prop) (c : Cell Bx) (base : Option (List (Part S))) : Prop where
  good : Good c.definition
  tidy : Tidy c.definition
  surf : ∀ v, v ∈ c.surfaces ↔ c.definition.Occurs v
  none : base = none → StartsBounded K c.definition ∧ (K.same c.plane.2 c.ext = true → Bounded K c.plane.1) ∧
    ∀ m, c.bound = some m → m.ori = .fwd ∧ BoxSays inBox c.ext (Area K c) m
  some : ∀ bs, base = some bs → BoundReady K c ∧ ∀ b ∈ bs, KnownOK K mem (· ∈ c.surfaces) b ∧ b.ori = .fwd

theorem sub_surf {c : Cell Bx} {e : Seq} (he : ∀ v, e.Occurs v → v ∈ c.surfaces) (v : Nat) :
    v ∈ (getSubCell c e).surfaces ↔ (getSubCell c e).definition.Occurs v := by
  simp only [getSubCell, List.mem_filter, decide_eq_true_eq, mem_surfaces]
  exact ⟨fun h => h.2, fun h => ⟨he v h, h⟩⟩

/-- a sub-cell with parts is ready -/
theorem ready_sub {c : Cell Bx} {e : Seq} {bx : Bx} {ori : Ori} {ps : List (Part S)} (hg : Good e) (ht : Tidy e)
    (he : ∀ v, e.Occurs v → v ∈ c.surfaces) (hR : Right K mem on inBox)
    (hb : (buildBound K (getSubCell c e) 100).bound = some ⟨some bx, ori⟩)
    (hk : ∀ p ∈ ps, KnownOK K mem (fun v => e.Occurs v) p ∧ p.ori = .fwd) :
    Ready K mem inBox (buildBound K (getSubCell c e) 100) (some ps) := by
  refine ⟨hg, ht, fun v => sub_surf he v, by simp, ?_⟩
  intro bs hbs
  simp only [Option.some.injEq] at hbs
  subst hbs
  refine ⟨⟨?_, bx, ori, ?_, hb⟩, fun b hb' => ⟨?_, (hk b hb').2⟩⟩
  · simp only [buildBound]
    split
    · next h => exact h
    · exact hR.same_refl _
  · simpa [buildBound] using hb
  · intro k hkk
    exact (hk b hb').1 k ((sub_surf he k).1 hkk)

/-- a sub-cell without parts is ready -/
theorem ready_new {c : Cell Bx} {e : Seq} (hg : Good e) (ht : Tidy e) (he : ∀ v, e.Occurs v → v ∈ c.surfaces)
    (hb : StartsBounded K e) (hp : K.same c.plane.2 c.ext = true → Bounded K c.plane.1) :
    Ready K mem inBox (getSubCell c e) (none : Option (List (Part S))) :=
  ⟨hg, ht, fun v => sub_surf he v, fun _ => ⟨hb, hp, by simp [getSubCell]⟩, by simp⟩

theorem KnownOK.mono {F G : Nat → Prop} {p : Part S} (h : KnownOK K mem F p) (hs : ∀ v, G v → F v) : KnownOK K mem G p :=
  fun k hk => h k (hs k hk)

theorem KnownOK.frame {F : Nat → Prop} {p b : Part S} (h : KnownOK K mem F b) (hs : ∀ x, mem p.solid x → mem b.solid x)
    (hk : ∀ j, F j → p.known j = b.known j) : KnownOK K mem F p := by
  intro k hF v hv
  rw [hk k hF] at hv
  obtain ⟨w, h1, h2⟩ := h k hF v hv
  exact ⟨w, h1, fun x hx => h2 x (hs x hx)⟩

/-- what the loop over the rest of an intersection does -/
structure LoopOK (K : Kernel α S Bx Sh) (mem : S → α → Prop) (on : Nat → α → Prop) (inBox : Bx → α → Prop) (c : Cell Bx)
    (es : List Seq) (ps qs : List (Part S)) (lost : List S) : Prop where
  frame : ∀ q ∈ qs, ∃ b ∈ ps, (∀ x, mem q.solid x → mem b.solid x) ∧ ∀ j, (∀ e ∈ es, ¬ e.Occurs j) → q.known j = b.known j
  known : ∀ F, (∀ e ∈ es, ∀ v, e.Occurs v → F v) → (∀ b ∈ ps, KnownOK K mem F b) → (∀ e ∈ es, ¬ Joins e) → ∀ q ∈ qs, KnownOK K mem F q
  sound : ∀ x, inBox c.ext x → inP mem qs x → (∀ e ∈ es, In K e x) ∨ Area K c x
  complete : ∀ x, inBox c.ext x → (∀ v ∈ c.surfaces, ¬ on v x) → ¬ inS mem lost x → inP mem ps x → (∀ e ∈ es, In K e x) →
    Area K c x → inP mem qs x
  fwd : ∀ q ∈ qs, q.ori = .fwd

theorem area_sub100 {c : Cell Bx} {e : Seq} {x : α} :
    ((In K e x ∨ Area K (buildBound K (getSubCell c e) 100) x) → (In K e x ∨ Area K c x)) ∧
    (In K e x → Area K c x → Area K (buildBound K (getSubCell c e) 100) x) := by
  rw [area_buildBound]
  exact area_sub

/-- one more element: `ps` before, `qs'` after the element, `qs` at the end -/
theorem LoopOK.cons {c : Cell Bx} {e : Seq} {es : List Seq} {ps qs' qs : List (Part S)} {l l' : List S}
    (h : LoopOK K mem on inBox c es qs' qs l')
    (frame : ∀ q ∈ qs', ∃ b ∈ ps, (∀ x, mem q.solid x → mem b.solid x) ∧ ∀ j, ¬ e.Occurs j → q.known j = b.known j)
    (known : ∀ F, (∀ v, e.Occurs v → F v) → (∀ b ∈ ps, KnownOK K mem F b) → ¬ Joins e → ∀ q ∈ qs', KnownOK K mem F q)
    (sound : ∀ x, inBox c.ext x → inP mem qs' x → In K e x ∨ Area K c x)
    (complete : ∀ x, inBox c.ext x → (∀ v ∈ c.surfaces, ¬ on v x) → ¬ inS mem l x → inP mem ps x → In K e x → Area K c x → inP mem qs' x) :
    LoopOK K mem on inBox c (e :: es) ps qs (l ++ l') := by
  refine ⟨?_, ?_, ?_, ?_, h.fwd⟩
  · intro q hq
    obtain ⟨b, hb, h1, h2⟩ := h.frame q hq
    obtain ⟨b', hb', h3, h4⟩ := frame b hb
    exact ⟨b', hb', fun x hx => h3 x (h1 x hx), fun j hj => by
      rw [h2 j (fun e' he' => hj e' (by simp [he'])), h4 j (hj e (by simp))]⟩
  · intro F hF hps hj
    exact h.known F (fun e' he' => hF e' (by simp [he'])) (known F (hF e (by simp)) hps (hj e (by simp))) (fun e' he' => hj e' (by simp [he']))
  · intro x hx hq
    rcases h.sound x hx hq with h1 | h1
    · obtain ⟨q, hq, hm⟩ := hq
      obtain ⟨b, hb, h2, -⟩ := h.frame q hq
      rcases sound x hx ⟨b, hb, h2 x hm⟩ with h3 | h3
      · left
        intro e' he'
        rcases List.mem_cons.1 he' with rfl | he'
        · exact h3
        · exact h1 e' he'
      · exact .inr h3
    · exact .inr h1
  · intro x hx hn hl hp hi ha
    simp only [inS_append, not_or] at hl
    exact h.complete x hx hn hl.2 (complete x hx hn hl.1 hp (hi e (by simp)) ha) (fun e' he' => hi e' (by simp [he'])) ha

/-- the call of `BuildDepth` for an element, with parts -/
def RecOK (K : Kernel α S Bx Sh) (mem : S → α → Prop) (on : Nat → α → Prop) (inBox : Bx → α → Prop)
    (rec : Cell Bx → Option (List (Part S)) → Res S) (e : Seq) : Prop :=
  ∀ c base, c.definition = e → Ready K mem inBox c base → ∃ r, rec c base = .ok r ∧ DepthOK K mem on inBox c base r

/-- one element, with parts that are not reversed -/
theorem step_ok {rec : Cell Bx → Option (List (Part S)) → Res S} {c : Cell Bx} {e : Seq} {bx : Bx} {ori : Ori} {ps : List (Part S)}
    (hR : Right K mem on inBox) (hrec : RecOK K mem on inBox rec e) (hg : Good e) (ht : Tidy e)
    (he : ∀ v, e.Occurs v → v ∈ c.surfaces) (hb : (buildBound K (getSubCell c e) 100).bound = some ⟨some bx, ori⟩)
    (hk : ∀ p ∈ ps, KnownOK K mem (fun v => e.Occurs v) p ∧ p.ori = .fwd) :
    ∃ part keep, filterParts K bx ori (fun _ => rec (buildBound K (getSubCell c e) 100) none) false ps = .ok (part, keep, []) ∧
      ∃ r l, (part = [] ∧ r = [] ∧ l = [] ∨ part ≠ [] ∧ rec (buildBound K (getSubCell c e) 100) (some part) = .ok (r, l)) ∧
      (∀ q ∈ r ++ keep, ∃ b ∈ ps, (∀ x, mem q.solid x → mem b.solid x) ∧ ∀ j, ¬ e.Occurs j → q.known j = b.known j) ∧
      (∀ F, (∀ v, e.Occurs v → F v) → (∀ b ∈ ps, KnownOK K mem F b) → ¬ Joins e → ∀ q ∈ r ++ keep, KnownOK K mem F q) ∧
      (∀ x, inBox c.ext x → inP mem (r ++ keep) x → In K e x ∨ Area K c x) ∧
      (∀ x, inBox c.ext x → (∀ v ∈ c.surfaces, ¬ on v x) → ¬ inS mem l x → inP mem ps x → In K e x → Area K c x → inP mem (r ++ keep) x) ∧
      ∀ q ∈ r ++ keep, q.ori = .fwd := by
  obtain ⟨m, hm, hsays⟩ := bound_says (K := K) hR (getSubCell c e) 100
  have hmm : m = ⟨some bx, ori⟩ := by rw [hm] at hb; simpa using hb
  subst hmm
  have hsays' : BoxSays inBox c.ext (Area K (getSubCell c e)) ⟨some bx, ori⟩ := hsays
  obtain ⟨part, keep, h1, h2, h3, h4, h5⟩ := filterParts_ok (mem := mem)
    (rb := fun _ => rec (buildBound K (getSubCell c e) 100) none) hR hsays' (fun p hp => (hk p hp).2)
  refine ⟨part, keep, h1, ?_⟩
  have hkeepF : ∀ q ∈ keep, ∃ b ∈ ps, (∀ x, mem q.solid x → mem b.solid x) ∧ ∀ j, ¬ e.Occurs j → q.known j = b.known j :=
    fun q hq => ⟨q, h3 q hq, fun x hx => hx, fun j _ => rfl⟩
  by_cases hp : part = []
  · subst hp
    refine ⟨[], [], .inl ⟨rfl, rfl, rfl⟩, ?_⟩
    simp only [List.nil_append]
    refine ⟨hkeepF, fun F _ hps _ q hq => hps q (h3 q hq), ?_, ?_, fun q hq => (hk q (h3 q hq)).2⟩
    · intro x hx hq
      exact area_sub.1 (.inr (h4 x hx hq))
    · intro x hx _ _ hps hi ha
      rcases h5 x hx (area_sub.2 hi ha) hps with h | h
      · simp at h
      · exact h
  · obtain ⟨⟨r, l⟩, hr, hd⟩ := hrec (buildBound K (getSubCell c e) 100) (some part) rfl
      (ready_sub hg ht he hR hb (fun p hp => hk p (h2 p hp)))
    refine ⟨r, l, .inr ⟨hp, hr⟩, ?_, ?_, ?_, ?_, ?_⟩
    · intro q hq
      rcases List.mem_append.1 hq with hq | hq
      · obtain ⟨b, hb', h6, h7⟩ := hd.frame q hq
        exact ⟨b, h2 b hb', h6, fun j hj => h7 j (fun hj' => hj ((sub_surf he j).1 hj'))⟩
      · exact hkeepF q hq
    · intro F hF hps hj q hq
      rcases List.mem_append.1 hq with hq | hq
      · exact hd.known F (fun v hv => hF v ((sub_surf he v).1 hv)) (baseOK_some.2 (fun b hb' => hps b (h2 b hb'))) hj q hq
      · exact hps q (h3 q hq)
    · intro x hx hq
      simp only [inP_append] at hq
      rcases hq with hq | hq
      · exact area_sub100.1 (hd.sound x hx hq)
      · exact area_sub.1 (.inr (h4 x hx hq))
    · intro x hx hn hl hps hi ha
      simp only [inP_append]
      rcases h5 x hx (area_sub.2 hi ha) hps with h | h
      · exact .inl (hd.complete x hx (fun v hv => hn v (he v ((sub_surf he v).1 hv))) hl h hi (area_sub100.2 hi ha))
      · exact .inr h
    · intro q hq
      rcases List.mem_append.1 hq with hq | hq
      · exact hd.fwd q hq
      · exact (hk q (h3 q hq)).2

theorem andLoop_ok {rec : Cell Bx → Option (List (Part S)) → Res S} {c : Cell Bx} (hR : Right K mem on inBox) :
    ∀ (es : List Seq) (ps : List (Part S)), (∀ e ∈ es, RecOK K mem on inBox rec e ∧ Good e ∧ Tidy e ∧ ∀ v, e.Occurs v → v ∈ c.surfaces) →
    es.Pairwise (fun a b => Joins a → Apart a b) → (∀ p ∈ ps, KnownOK K mem (fun v => ∃ e ∈ es, e.Occurs v) p ∧ p.ori = .fwd) →
    ∃ qs l, andLoop K rec c (.many ps) es = .ok (.many qs, l) ∧ LoopOK K mem on inBox c es ps qs l := by
  intro es
  induction es with
  | nil =>
    intro ps _ _ hk
    refine ⟨ps, [], rfl, ⟨fun q hq => ⟨q, hq, fun x hx => hx, fun _ _ => rfl⟩, fun F _ h _ => h, by simp, fun x _ _ _ h _ _ => h, fun q hq => (hk q hq).2⟩⟩
  | cons e es ih =>
    intro ps hes hpw hk
    obtain ⟨hrec, hg, ht, he⟩ := hes e (by simp)
    have hes' := fun e' (he' : e' ∈ es) => hes e' (by simp [he'])
    rw [List.pairwise_cons] at hpw
    have hkE : ∀ p ∈ ps, KnownOK K mem (fun v => e.Occurs v) p ∧ p.ori = .fwd := fun p hp =>
      ⟨(hk p hp).1.mono (fun v hv => ⟨e, by simp, hv⟩), (hk p hp).2⟩
    obtain ⟨⟨box, ori⟩, hm, hsays⟩ := bound_says (K := K) hR (getSubCell c e) 100
    have hsays' : BoxSays inBox c.ext (Area K (getSubCell c e)) ⟨box, ori⟩ := hsays
    cases box with
    | none =>
      cases ori with
      | rev =>
        obtain ⟨qs, l, h1, h2⟩ := ih ps hes' hpw.2 (fun p hp =>
          ⟨(hk p hp).1.mono (fun v ⟨e', he', hv⟩ => ⟨e', by simp [he'], hv⟩), (hk p hp).2⟩)
        refine ⟨qs, l, by simp only [andLoop, hm, h1], ?_⟩
        have := LoopOK.cons (e := e) (ps := ps) (l := []) h2 (fun q hq => ⟨q, hq, fun x hx => hx, fun _ _ => rfl⟩) (fun F _ h _ => h)
          (fun x hx _ => area_sub.1 (.inr (hsays' x hx))) (fun x _ _ _ h _ _ => h)
        simpa using this
      | fwd =>
        refine ⟨[], [], by simp only [andLoop, hm], by simp, by simp, by simp, ?_, by simp⟩
        intro x hx _ _ _ hi ha
        exact absurd (area_sub.2 (hi e (by simp)) ha) (hsays' x hx)
    | some bx =>
      obtain ⟨part, keep, h1, r, l, h2, h3, h4, h5, h6, h7⟩ := step_ok hR hrec hg ht he hm hkE
      have hkq : ∀ q ∈ r ++ keep, KnownOK K mem (fun v => ∃ e ∈ es, e.Occurs v) q ∧ q.ori = .fwd := by
        intro q hq
        refine ⟨?_, h7 q hq⟩
        by_cases hj : Joins e
        · obtain ⟨b, hb, h8, h9⟩ := h3 q hq
          refine ((hk b hb).1.mono (fun v ⟨e', he', hv⟩ => ⟨e', by simp [he'], hv⟩)).frame h8 (fun j hj' => h9 j (fun hje => ?_))
          obtain ⟨e', he', hv⟩ := hj'
          exact hpw.1 e' he' hj j hje hv
        · exact (h4 (fun v => ∃ e' ∈ e :: es, e'.Occurs v) (fun v hv => ⟨e, by simp, hv⟩) (fun b hb => (hk b hb).1) hj q hq).mono
            (fun v ⟨e', he', hv⟩ => ⟨e', by simp [he'], hv⟩)
      obtain ⟨qs, l', h8, h9⟩ := ih (r ++ keep) hes' hpw.2 hkq
      rcases h2 with ⟨hp, hr, hl⟩ | ⟨hp, hr⟩
      · subst hp hr hl
        simp only [List.nil_append] at *
        by_cases hkp : keep = []
        · subst hkp
          refine ⟨[], [], ?_, by simp, by simp, by simp, ?_, by simp⟩
          · simp only [andLoop, hm, Cur.parts, h1]
            rfl
          · intro x hx hn _ hps hi ha
            have := h6 x hx hn (by simp) hps (hi e (by simp)) ha
            simpa using this
        · refine ⟨qs, l', ?_, ?_⟩
          · have hke : keep.isEmpty = false := by cases h : keep <;> simp_all
            simp only [andLoop, hm, Cur.parts, h1]
            simp [bind, Except.bind, hke, h8]
          · have := h9.cons (l := []) h3 h4 h5 h6
            simpa using this
      · have hpe : part.isEmpty = false := by cases h : part <;> simp_all
        refine ⟨qs, l ++ l', ?_, h9.cons h3 h4 h5 h6⟩
        simp only [andLoop, hm, Cur.parts, h1]
        simp [bind, Except.bind, hpe, hr, h8]

end

end Geouned.Rev.Solid
