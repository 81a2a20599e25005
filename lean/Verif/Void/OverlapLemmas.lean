import Verif.Void.Overlap
import Verif.Void.Lemmas
/-!
# Lemmas for `no_overlapping_cell`
-/
namespace Geouned

/-- a piece is an intersection -/
def Seq.IsAnd : Seq → Prop
  | .lst .and _ _ => True
  | _ => False

theorem literalsOf_mem {rev : Bool} : ∀ (es : List Seq) (ns : List Int), literalsOf rev es = .ok ns →
    ∀ n ∈ ns, ∃ m, .int m ∈ es ∧ n = (if rev then -m else m) := by
  intro es
  induction es with
  | nil => intro ns h n hn; simp [literalsOf] at h; subst h; simp at hn
  | cons e es ih =>
    intro ns h n hn
    have other : (if rev then (Except.error .typeError : M (List Int)) else literalsOf rev es) = .ok ns →
        ∃ m, .int m ∈ e :: es ∧ n = (if rev then -m else m) := by
      intro h
      split at h
      · simp at h
      · obtain ⟨m, h1, h2⟩ := ih ns h n hn
        exact ⟨m, by simp [h1], h2⟩
    cases e with
    | int k =>
      simp only [literalsOf, bind_ok] at h
      obtain ⟨ns', h1, h⟩ := h
      simp at h; subst h
      rcases List.mem_cons.1 hn with rfl | hn
      · exact ⟨k, by simp, rfl⟩
      · obtain ⟨m, h2, h3⟩ := ih ns' h1 n hn
        exact ⟨m, by simp [h2], h3⟩
    | boo o l b => exact other h
    | lst o l xs => exact other h

theorem semAll_mem {σ : Side} : ∀ {es : List Seq} {e : Seq}, Seq.semAll σ es = true → e ∈ es → e.sem σ = true := by
  intro es
  induction es with
  | nil => intro e _ h; simp at h
  | cons x xs ih =>
    intro e h he
    simp [Seq.semAll] at h
    rcases List.mem_cons.1 he with rfl | he
    · exact h.1
    · exact ih h.2 he

theorem firstAnd_sem {rev : Bool} {σ : Side} : ∀ (es : List Seq) (ns : List Int), firstAnd rev es = .ok ns →
    Seq.semAll σ es = true → ∀ n ∈ ns, lit σ (if rev then -n else n) = true := by
  intro es
  induction es with
  | nil => intro ns h _ n hn; simp [firstAnd] at h; subst h; simp at hn
  | cons e es ih =>
    intro ns h hs n hn
    simp only [firstAnd, bind_ok] at h
    obtain ⟨op, ho, h⟩ := h
    simp [Seq.semAll] at hs
    cases op with
    | or => exact ih ns h hs.2 n hn
    | and =>
      simp only [bind_ok] at h
      obtain ⟨xs, hx, h⟩ := h
      obtain ⟨m, h1, h2⟩ := literalsOf_mem xs ns h n hn
      cases e with
      | int k => simp [Seq.elemsOf] at hx
      | boo o l b => simp [Seq.elemsOf] at hx
      | lst o l ys =>
        simp [Seq.elemsOf] at hx; subst hx
        simp [Seq.opOf] at ho; subst ho
        have := semAll_mem (by simpa [Seq.sem] using hs.1) h1
        cases rev <;> simp_all [Seq.sem]

theorem surfValue_sem {rev : Bool} {σ : Side} {s : Seq} {ns : List Int} (ha : s.IsAnd) (h : surfValue rev s = .ok ns)
    (hs : s.sem σ = true) : ∀ n ∈ ns, lit σ (if rev then -n else n) = true := by
  cases s with
  | int k => simp [surfValue] at h
  | boo o l b => simp [surfValue] at h
  | lst o l es =>
    cases o with
    | or => simp [Seq.IsAnd] at ha
    | and =>
      simp [surfValue] at h
      simp [Seq.sem] at hs
      split at h
      · intro n hn
        obtain ⟨m, h1, h2⟩ := literalsOf_mem es ns h n hn
        have := semAll_mem hs h1
        cases rev <;> simp_all [Seq.sem]
      · exact firstAnd_sem es ns h hs

theorem lit_neg_ne {σ : Side} {n : Int} (hn : n ≠ 0) : lit σ (-n) = !lit σ n := by
  unfold lit
  by_cases h : n < 0
  · have h' : ¬ (-n < 0) := by omega
    rw [if_neg h', if_pos h]; simp
  · have h' : -n < 0 := by omega
    rw [if_pos h', if_neg h]; simp

theorem literalsOf_ne {rev : Bool} {es : List Seq} {ns : List Int} (hw : ∀ e ∈ es, e.WF) (h : literalsOf rev es = .ok ns) :
    ∀ n ∈ ns, n ≠ 0 := by
  intro n hn
  obtain ⟨m, h1, h2⟩ := literalsOf_mem es ns h n hn
  have := hw _ h1
  simp [Seq.WF] at this
  cases rev <;> simp_all

theorem firstAnd_ne {rev : Bool} : ∀ {es : List Seq} {ns : List Int}, (∀ e ∈ es, e.WF) → firstAnd rev es = .ok ns →
    ∀ n ∈ ns, n ≠ 0 := by
  intro es
  induction es with
  | nil => intro ns _ h n hn; simp [firstAnd] at h; subst h; simp at hn
  | cons e es ih =>
    intro ns hw h
    simp only [firstAnd, bind_ok] at h
    obtain ⟨op, ho, h⟩ := h
    cases op with
    | or => exact ih (fun x hx => hw x (by simp [hx])) h
    | and =>
      simp only [bind_ok] at h
      obtain ⟨xs, hx, h⟩ := h
      cases e with
      | int k => simp [Seq.elemsOf] at hx
      | boo o l b => simp [Seq.elemsOf] at hx
      | lst o l ys =>
        simp [Seq.elemsOf] at hx; subst hx
        exact literalsOf_ne ((WF_lst o l ys).1 (hw _ (by simp))).2 h

theorem surfValue_ne {rev : Bool} {s : Seq} {ns : List Int} (hw : s.WF) (h : surfValue rev s = .ok ns) :
    ∀ n ∈ ns, n ≠ 0 := by
  cases s with
  | int k => simp [surfValue] at h
  | boo o l b => simp [surfValue] at h
  | lst o l es =>
    simp [surfValue] at h
    split at h
    · exact literalsOf_ne ((WF_lst _ _ _).1 hw).2 h
    · exact firstAnd_ne ((WF_lst _ _ _).1 hw).2 h

/-- CAD answers hold at the point: pieces whose bounding boxes do not meet share no point -/
def CadOK {β : Type} (inter : β → β → Bool) (σ : Side) (p q : Part β) : Prop :=
  inter p.cad q.cad = false → p.defn.sem σ = true → q.defn.sem σ = false

/-- the pieces are well-formed intersections -/
def Part.OK {β : Type} (p : Part β) : Prop := p.defn.WF ∧ p.defn.IsAnd

theorem appendComp_spec {β : Type} {f : Nat} {inter : β → β → Bool} {p : Part β} {surfCell : List Int}
    (hp : p.OK) (hsc : surfValue true p.defn = .ok surfCell) :
    ∀ (qs : List (Part β)) (new new' : Seq) (b : Bool), (∀ q ∈ qs, q.OK) → Shape .and new → new.WF →
    appendComp f inter surfCell p.cad qs new = .ok (new', b) →
    Shape .and new' ∧ new'.WF ∧
    (∀ σ, (new.sem σ = true → p.defn.sem σ = true) → (∀ q ∈ qs, CadOK inter σ p q) →
      new'.sem σ = (new.sem σ && !qs.any (·.defn.sem σ))) ∧
    (b = false → new' = new) := by
  intro qs
  induction qs with
  | nil =>
    intro new new' b _ hs hw h
    simp [appendComp] at h; obtain ⟨rfl, rfl⟩ := h
    exact ⟨hs, hw, fun σ _ _ => by simp, fun _ => rfl⟩
  | cons q qs ih =>
    intro new new' b hq hs hw h
    have hq' : ∀ x ∈ qs, x.OK := fun x hx => hq x (by simp [hx])
    have skip : (∀ σ, (∀ x ∈ q :: qs, CadOK inter σ p x) → p.defn.sem σ = true → q.defn.sem σ = false) →
        appendComp f inter surfCell p.cad qs new = .ok (new', b) →
        Shape .and new' ∧ new'.WF ∧
        (∀ σ, (new.sem σ = true → p.defn.sem σ = true) → (∀ x ∈ q :: qs, CadOK inter σ p x) →
          new'.sem σ = (new.sem σ && !(q :: qs).any (·.defn.sem σ))) ∧
        (b = false → new' = new) := by
      intro hd h
      obtain ⟨a1, a2, a3, a4⟩ := ih new new' b hq' hs hw h
      refine ⟨a1, a2, fun σ hσ hc => ?_, a4⟩
      rw [a3 σ hσ (fun x hx => hc x (by simp [hx]))]
      cases hn : new.sem σ with
      | false => rfl
      | true => simp [hd σ hc (hσ hn)]
    simp only [appendComp] at h
    split at h
    · next hi =>
      exact skip (fun σ hc hp' => hc q (by simp) (by simpa using hi) hp') h
    · simp only [bind_ok] at h
      obtain ⟨sc, h1, h⟩ := h
      split at h
      · next hany =>
        refine skip (fun σ _ hp' => ?_) h
        obtain ⟨n, hn1, hn2⟩ := List.any_eq_true.1 hany
        have hn2' : n ∈ surfCell := by simpa using hn2
        have e1 := surfValue_sem hp.2 hsc hp' n hn2'
        have hne := surfValue_ne hp.1 hsc n hn2'
        cases hb : q.defn.sem σ with
        | false => rfl
        | true =>
          have e2 := surfValue_sem (hq q (by simp)).2 h1 hb n hn1
          simp [lit_neg_ne hne] at e1 e2
          simp [e1] at e2
      · simp only [bind_ok] at h
        obtain ⟨⟨x, c⟩, hc, n1, hn, ⟨n2, b2⟩, h2, h⟩ := h
        simp at h; obtain ⟨rfl, rfl⟩ := h
        obtain ⟨-, c2, -, c4⟩ := comp_spec f _ x c (hq q (by simp)).1 hc
        obtain ⟨a1, a2, a3⟩ := append_shape hs hw c2 hn
        obtain ⟨d1, d2, d3, -⟩ := ih n1 n2 b2 hq' a1 a2 h2
        refine ⟨d1, d2, fun σ hσ hcad => ?_, fun h => by simp at h⟩
        have e : n1.sem σ = (new.sem σ && !q.defn.sem σ) := by rw [a3 σ, c4 σ]; rfl
        rw [d3 σ (fun h => hσ (by rw [e] at h; simp at h; exact h.1)) (fun x hx => hcad x (by simp [hx])), e]
        simp only [List.any_cons]
        cases new.sem σ <;> cases q.defn.sem σ <;> simp

theorem appendComps_spec {β : Type} {f : Nat} {inter : β → β → Bool} {p : Part β} (hp : p.OK) :
    ∀ (ms : List (Meta β)) (new new' : Seq) (b : Bool), (∀ m ∈ ms, ∀ q ∈ m.parts, q.OK) → Shape .and new → new.WF →
    appendComps f inter p ms new = .ok (new', b) →
    Shape .and new' ∧ new'.WF ∧
    (∀ σ, (new.sem σ = true → p.defn.sem σ = true) → (∀ m ∈ ms, ∀ q ∈ m.parts, CadOK inter σ p q) →
      new'.sem σ = (new.sem σ && !ms.any (fun m => m.parts.any (·.defn.sem σ)))) ∧
    (b = false → new' = new) := by
  intro ms
  induction ms with
  | nil =>
    intro new new' b _ hs hw h
    simp [appendComps] at h; obtain ⟨rfl, rfl⟩ := h
    exact ⟨hs, hw, fun σ _ _ => by simp, fun _ => rfl⟩
  | cons m ms ih =>
    intro new new' b hq hs hw h
    simp only [appendComps, bind_ok] at h
    obtain ⟨sc, h1, ⟨n1, b1⟩, h2, ⟨n2, b2⟩, h3, h⟩ := h
    simp at h; obtain ⟨rfl, rfl⟩ := h
    obtain ⟨a1, a2, a3, a4⟩ := appendComp_spec hp h1 m.parts new n1 b1 (hq m (by simp)) hs hw h2
    obtain ⟨d1, d2, d3, d4⟩ := ih n1 n2 b2 (fun x hx => hq x (by simp [hx])) a1 a2 h3
    refine ⟨d1, d2, fun σ hσ hc => ?_, fun hb => ?_⟩
    · have e := a3 σ hσ (hc m (by simp))
      rw [d3 σ (fun h => hσ (by rw [e] at h; simp at h; exact h.1)) (fun x hx => hc x (by simp [hx])), e]
      simp [Bool.and_assoc]
    · simp at hb
      rw [d4 hb.2, a4 hb.1]

/-- is the point in some piece of some of these cells -/
def InAny {β : Type} (σ : Side) (ms : List (Meta β)) : Bool := ms.any (fun m => m.parts.any (·.defn.sem σ))

theorem newPart_spec {β : Type} {f : Nat} {inter : β → β → Bool} {ms : List (Meta β)} {p : Part β} {s : Seq} {b : Bool}
    (hp : p.OK) (hq : ∀ m ∈ ms, ∀ q ∈ m.parts, q.OK) (h : newPart f inter ms p = .ok (s, b)) :
    Shape .and s ∧ s.WF ∧
    ∀ σ, (∀ m ∈ ms, ∀ q ∈ m.parts, CadOK inter σ p q) →
      s.sem σ = (p.defn.sem σ && !InAny σ ms) ∧ (b = false → s.sem σ = p.defn.sem σ) := by
  simp only [newPart, bind_ok] at h
  obtain ⟨n, h1, h⟩ := h
  obtain ⟨a1, a2, a3⟩ := append_shape (.inl ⟨0, [], rfl⟩) (empty_WF .and) hp.1 h1
  have e : ∀ σ, n.sem σ = p.defn.sem σ := fun σ => by rw [a3 σ]; simp [Seq.sem, Seq.semAll, Op.app]
  obtain ⟨d1, d2, d3, d4⟩ := appendComps_spec hp ms n s b hq a1 a2 h
  refine ⟨d1, d2, fun σ hc => ⟨?_, fun hb => ?_⟩⟩
  · rw [d3 σ (fun h => by rw [← e σ]; exact h) hc, e σ]; rfl
  · rw [d4 hb, e σ]

theorem newParts_spec {β : Type} {f : Nat} {inter : β → β → Bool} {ms : List (Meta β)}
    (hq : ∀ m ∈ ms, ∀ q ∈ m.parts, q.OK) : ∀ (ps : List (Part β)) (new new' : Seq) (bs : List Bool),
    (∀ p ∈ ps, p.OK) → Shape .or new → new.WF → newParts f inter ms ps new = .ok (new', bs) →
    Shape .or new' ∧ new'.WF ∧
    ∀ σ, (∀ p ∈ ps, ∀ m ∈ ms, ∀ q ∈ m.parts, CadOK inter σ p q) →
      new'.sem σ = (new.sem σ || (ps.any (·.defn.sem σ) && !InAny σ ms)) ∧
      (bs.any id = false → new'.sem σ = (new.sem σ || ps.any (·.defn.sem σ))) := by
  intro ps
  induction ps with
  | nil =>
    intro new new' bs _ hs hw h
    simp [newParts] at h; obtain ⟨rfl, rfl⟩ := h
    exact ⟨hs, hw, fun σ _ => by simp⟩
  | cons p ps ih =>
    intro new new' bs hp hs hw h
    simp only [newParts, bind_ok] at h
    obtain ⟨⟨s, b⟩, h1, n1, h2, ⟨n2, bs2⟩, h3, h⟩ := h
    simp at h; obtain ⟨rfl, rfl⟩ := h
    obtain ⟨-, p2, p3⟩ := newPart_spec (hp p (by simp)) hq h1
    obtain ⟨a1, a2, a3⟩ := append_shape hs hw p2 h2
    obtain ⟨d1, d2, d3⟩ := ih n1 n2 bs2 (fun x hx => hp x (by simp [hx])) a1 a2 h3
    refine ⟨d1, d2, fun σ hc => ?_⟩
    obtain ⟨e1, e2⟩ := p3 σ (hc p (by simp))
    obtain ⟨f1, f2⟩ := d3 σ (fun x hx => hc x (by simp [hx]))
    refine ⟨?_, fun hb => ?_⟩
    · rw [f1, a3 σ, e1]
      simp only [Op.app, List.any_cons]
      cases new.sem σ <;> cases p.defn.sem σ <;> cases InAny σ ms <;> simp
    · simp at hb
      rw [f2 (by simpa using hb.2), a3 σ, e2 hb.1]
      simp [Op.app, Bool.or_assoc]

theorem metaDefn_sem {β : Type} (m : Meta β) (σ : Side) : m.defn.sem σ = m.parts.any (·.defn.sem σ) := by
  have g : ∀ ps : List (Part β), Seq.semAny σ (ps.map Part.defn) = ps.any (·.defn.sem σ) := by
    intro ps
    induction ps with
    | nil => rfl
    | cons p ps ih => simp [Seq.semAny, ih]
  unfold Meta.defn
  split
  · next h => simp [h]
  · simp [Seq.sem, g]

theorem newDef_spec {β : Type} {f : Nat} {inter : β → β → Bool} {ms : List (Meta β)} {m : Meta β} {new : Seq}
    {bs : List Bool} (hp : ∀ p ∈ m.parts, p.OK) (hq : ∀ m ∈ ms, ∀ q ∈ m.parts, q.OK)
    (h : newDef f inter ms m = .ok (new, bs)) :
    new.WF ∧ ∀ σ, (∀ p ∈ m.parts, ∀ m' ∈ ms, ∀ q ∈ m'.parts, CadOK inter σ p q) →
      new.sem σ = (m.defn.sem σ && !InAny σ ms) ∧ (bs.any id = false → new.sem σ = m.defn.sem σ) := by
  unfold newDef at h
  split at h
  · next p h1 h2 =>
    simp only [bind_ok] at h
    obtain ⟨⟨s, b⟩, h3, h⟩ := h
    simp at h; obtain ⟨rfl, rfl⟩ := h
    obtain ⟨-, p2, p3⟩ := newPart_spec (hp p (by simp [h2])) hq h3
    refine ⟨p2, fun σ hc => ?_⟩
    have := p3 σ (hc p (by simp [h2]))
    rw [metaDefn_sem, h2]
    simpa using this
  · obtain ⟨-, a2, a3⟩ := newParts_spec hq m.parts _ new bs hp (.inl ⟨0, [], rfl⟩) (empty_WF .or) h
    refine ⟨a2, fun σ hc => ?_⟩
    have := a3 σ hc
    rw [metaDefn_sem]
    simpa [Seq.sem, Seq.semAny] using this

theorem simpParts_spec {t : CTable} {enum : Seq → List Nat} {f : Nat} (hq : t.NoEquivalence) :
    ∀ (bs : List Bool) (es es' : List Seq), (∀ e ∈ es, e.WF) → simpParts true t enum f bs es = .ok es' →
    (∀ e ∈ es', e.WF) ∧ ∀ σ, t.Sound σ → Seq.semAny σ es' = Seq.semAny σ es := by
  intro bs
  induction bs with
  | nil => intro es es' hw h; simp [simpParts] at h; subst h; exact ⟨hw, fun _ _ => rfl⟩
  | cons b bs ih =>
    intro es es' hw h
    cases es with
    | nil =>
      cases b with
      | true => simp [simpParts] at h
      | false => simp only [simpParts] at h; exact ih [] es' (by simp) h
    | cons e es =>
      have hw' : ∀ x ∈ es, x.WF := fun x hx => hw x (by simp [hx])
      cases b with
      | false =>
        simp only [simpParts, bind_ok] at h
        obtain ⟨r, h1, h⟩ := h
        simp at h; subst h
        obtain ⟨a1, a2⟩ := ih es r hw' h1
        refine ⟨fun x hx => ?_, fun σ hσ => by simp [Seq.semAny, a2 σ hσ]⟩
        rcases List.mem_cons.1 hx with rfl | hx
        · exact hw _ (by simp)
        · exact a1 x hx
      | true =>
        simp only [simpParts, bind_ok] at h
        obtain ⟨e1, h0, r, h1, h⟩ := h
        simp at h; subst h
        obtain ⟨a1, a2⟩ := ih es r hw' h1
        obtain ⟨s1, s2⟩ := simplify_spec f 0 e e1 (hw e (by simp)) h0
        refine ⟨fun x hx => ?_, fun σ hσ => ?_⟩
        · rcases List.mem_cons.1 hx with rfl | hx
          · exact clean_WF _ s1
          · exact a1 x hx
        · simp [Seq.semAny, a2 σ hσ, clean_sem, s2 σ (table_CTSound hq hσ)]

theorem simpParts_code {t : CTable} {enum : Seq → List Nat} {f : Nat} :
    ∀ (bs : List Bool) (es es' : List Seq), simpParts true t enum f bs es = .ok es' →
    simpParts false t enum f bs es = .ok es' := by
  intro bs
  induction bs with
  | nil => intro es es' h; exact h
  | cons b bs ih =>
    intro es es' h
    cases es with
    | nil =>
      cases b with
      | true => exact h
      | false => simp only [simpParts] at h ⊢; exact ih _ _ h
    | cons e es =>
      cases b with
      | false =>
        simp only [simpParts, bind_ok] at h ⊢
        obtain ⟨r, h1, h⟩ := h
        exact ⟨r, ih _ _ h1, h⟩
      | true =>
        simp only [simpParts, bind_ok] at h ⊢
        obtain ⟨e1, h0, r, h1, h⟩ := h
        exact ⟨e1, simplify_guard _ _ _ _ h0, r, ih _ _ h1, h⟩

theorem simpParts_int {t : CTable} {enum : Seq → List Nat} {f : Nat} {g : Bool} :
    ∀ (bs : List Bool) (es es' : List Seq), AllInt es → simpParts g t enum f bs es = .ok es' → es' = es := by
  intro bs
  induction bs with
  | nil => intro es es' _ h; simp [simpParts] at h; exact h.symm
  | cons b bs ih =>
    intro es es' hi h
    cases es with
    | nil =>
      cases b with
      | true => simp [simpParts] at h
      | false => simp only [simpParts] at h; exact ih [] es' hi h
    | cons e es =>
      cases b with
      | false =>
        simp only [simpParts, bind_ok] at h
        obtain ⟨r, h1, h⟩ := h
        simp at h; subst h
        rw [ih es r (fun x hx => hi x (by simp [hx])) h1]
      | true =>
        obtain ⟨n, rfl⟩ := hi e (by simp)
        simp only [simpParts, bind_ok] at h
        obtain ⟨e1, h0, -⟩ := h
        cases f <;> simp [Seq.simplify, simpInner] at h0

theorem simpDef_spec {t : CTable} {enum : Seq → List Nat} {f : Nat} {bs : List Bool} {s s' : Seq} (hq : t.NoEquivalence)
    (hw : s.WF) (h : simpDef true t enum f bs s = .ok s') :
    s'.WF ∧ ∀ σ, t.Sound σ → s'.sem σ = s.sem σ := by
  have viaSimp : ∀ s : Seq, s.WF → (s.simplify true enum (some t.constraintSet) f 0 >>= fun s => .ok s.clean) = .ok s' →
      s'.WF ∧ ∀ σ, t.Sound σ → s'.sem σ = s.sem σ := by
    intro s hw h
    simp only [bind_ok] at h
    obtain ⟨s1, h1, h⟩ := h
    simp at h; subst h
    obtain ⟨a1, a2⟩ := simplify_spec f 0 s s1 hw h1
    exact ⟨clean_WF _ a1, fun σ hσ => by rw [clean_sem, a2 σ (table_CTSound hq hσ)]⟩
  cases s with
  | int n => simp [simpDef] at h
  | boo o l b =>
    cases o with
    | and => exact viaSimp _ hw h
    | or => simp [simpDef] at h
  | lst o l es =>
    cases o with
    | and => exact viaSimp _ hw h
    | or =>
      simp only [simpDef, bind_ok] at h
      obtain ⟨es', h1, h⟩ := h
      simp at h; subst h
      rw [WF_lst] at hw
      obtain ⟨a1, a2⟩ := simpParts_spec hq bs es es' hw.2 h1
      refine ⟨?_, fun σ hσ => by simpa [Seq.sem] using a2 σ hσ⟩
      rw [WF_lst]
      exact ⟨⟨hw.1.1, fun h0 => by rw [simpParts_int bs es es' (hw.1.2 h0) h1]; exact hw.1.2 h0⟩, a1⟩

theorem simpDef_code {t : CTable} {enum : Seq → List Nat} {f : Nat} {bs : List Bool} {s s' : Seq}
    (h : simpDef true t enum f bs s = .ok s') : simpDef false t enum f bs s = .ok s' := by
  cases s with
  | int n => simp [simpDef] at h
  | boo o l b =>
    cases o with
    | and =>
      simp only [simpDef, bind_ok] at h ⊢
      obtain ⟨s1, h1, h⟩ := h
      exact ⟨s1, simplify_guard _ _ _ _ h1, h⟩
    | or => simp [simpDef] at h
  | lst o l es =>
    cases o with
    | and =>
      simp only [simpDef, bind_ok] at h ⊢
      obtain ⟨s1, h1, h⟩ := h
      exact ⟨s1, simplify_guard _ _ _ _ h1, h⟩
    | or =>
      simp only [simpDef, bind_ok] at h ⊢
      obtain ⟨s1, h1, h⟩ := h
      exact ⟨s1, simpParts_code _ _ _ h1, h⟩

theorem finishDef_code {β : Type} {enum : Seq → List Nat} {f : Nat} {m : Meta β} {new s : Seq} {bs : List Bool}
    (h : finishDef true enum f m new bs = .ok s) : finishDef false enum f m new bs = .ok s := by
  unfold finishDef at h ⊢
  split at h
  · next hb =>
    rw [if_pos hb]
    simp only [bind_ok] at h ⊢
    obtain ⟨s1, h1, s2, h2, h⟩ := h
    exact ⟨s1, removeExtraG_code h1, s2, simpDef_code h2, h⟩
  · next hb => rw [if_neg hb]; exact h

theorem finishDef_spec {β : Type} {enum : Seq → List Nat} {f : Nat} {m : Meta β} {new s : Seq} {bs : List Bool}
    (h1q : m.diagTable.NoEquivalence) (h2q : m.fullTable.NoEquivalence) (hw : new.WF)
    (h : finishDef true enum f m new bs = .ok s) :
    ∀ σ, m.diagTable.Sound σ → m.fullTable.Sound σ → (bs.any id = false → new.sem σ = m.defn.sem σ) →
      s.sem σ = new.sem σ := by
  unfold finishDef at h
  split at h
  · simp only [bind_ok] at h
    obtain ⟨s1, h1, s2, h2, s3, h3, h⟩ := h
    simp at h; subst h
    obtain ⟨a1, a2⟩ := removeExtraG_spec hw h1q h1
    obtain ⟨b1, b2⟩ := simpDef_spec h2q a1 h2
    obtain ⟨c1, c2⟩ := joinOps_spec f false _ s3 b1 h3
    intro σ hd hf _
    rw [levelUpdate_sem, c2 σ, b2 σ hf, a2 σ hd]
  · next hb =>
    simp at h; subst h
    intro σ _ _ h
    exact (h (by simpa using hb)).symm

theorem noOverlap_code {β : Type} {enum : Seq → List Nat} {f : Nat} {inter : β → β → Bool} :
    ∀ (ms earlier : List (Meta β)) (r : List Seq), noOverlap true enum f inter earlier ms = .ok r →
    noOverlap false enum f inter earlier ms = .ok r := by
  intro ms
  induction ms with
  | nil => intro e r h; exact h
  | cons m ms ih =>
    intro e r h
    simp only [noOverlap, bind_ok] at h ⊢
    obtain ⟨⟨n, bs⟩, h1, s, h2, r1, h3, h⟩ := h
    exact ⟨(n, bs), h1, s, finishDef_code h2, r1, ih _ _ h3, h⟩

theorem noOverlap_spec {β : Type} {enum : Seq → List Nat} {f : Nat} {inter : β → β → Bool} :
    ∀ (ms earlier : List (Meta β)) (r : List Seq),
    (∀ m ∈ earlier ++ ms, ∀ q ∈ m.parts, q.OK) →
    (∀ m ∈ ms, m.diagTable.NoEquivalence ∧ m.fullTable.NoEquivalence) →
    noOverlap true enum f inter earlier ms = .ok r →
    r.length = ms.length ∧
    ∀ (k : Nat) (m : Meta β) (s : Seq), ms[k]? = some m → r[k]? = some s →
      ∀ σ, m.diagTable.Sound σ → m.fullTable.Sound σ →
        (∀ m ∈ earlier ++ ms, ∀ m' ∈ earlier ++ ms, ∀ p ∈ m.parts, ∀ q ∈ m'.parts, CadOK inter σ p q) →
        s.sem σ = (m.defn.sem σ && !InAny σ (earlier ++ ms.take k)) := by
  intro ms
  induction ms with
  | nil => intro e r _ _ h; simp [noOverlap] at h; subst h; simp
  | cons m ms ih =>
    intro e r hok hq h
    simp only [noOverlap, bind_ok] at h
    obtain ⟨⟨n, bs⟩, h1, s, h2, r1, h3, h⟩ := h
    simp at h; subst h
    obtain ⟨a1, a2⟩ := ih (e ++ [m]) r1 (by simpa using hok) (fun x hx => hq x (by simp [hx])) h3
    refine ⟨by simp [a1], ?_⟩
    intro k m' s' hk hs σ hd hf hc
    cases k with
    | zero =>
      simp at hk hs; subst hk; subst hs
      obtain ⟨n1, n2⟩ := newDef_spec (hok m (by simp)) (fun x hx => hok x (by simp [hx])) h1
      have := n2 σ (fun p hp m' hm' q hq => hc m (by simp) m' (by simp [hm']) p hp q hq)
      rw [finishDef_spec (hq m (by simp)).1 (hq m (by simp)).2 n1 h2 σ hd hf this.2, this.1]
      simp
    | succ k =>
      simp at hk hs
      have := a2 k m' s' hk hs σ hd hf (by simpa using hc)
      rw [this]
      simp
end Geouned
