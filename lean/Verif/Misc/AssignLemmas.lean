import Verif.Misc.AssignSpec
import Verif.Misc.EnclLemmas
/-!
# Lemmas on the void generation with enclosures
-/
namespace Geouned.Encl

theorem Dep.mem_add {d : Dep} {x y : Int} : y ∈ (d.add x).dep ↔ y ∈ d.dep ∨ y = x := by
  unfold Dep.add
  dsimp only
  split
  · next h => constructor
              · exact .inl
              · rintro (h' | rfl)
                · exact h'
                · exact h
  · simp

section level
variable {inter : Encl → Int}

theorem levelLoop_mono {top : Bool} {x : Int} : ∀ (l : List Encl) (d : Dep), x ∈ d.dep → x ∈ (levelLoop inter top l d).1.dep
  | [], d, h => h
  | e :: es, d, h => by
    simp only [levelLoop]
    split
    · split
      · exact levelLoop_mono es _ (Dep.mem_add.2 (.inl (Dep.mem_add.2 (.inl h))))
      · exact levelLoop_mono es _ (Dep.mem_add.2 (.inl h))
    · split
      · exact Dep.mem_add.2 (.inl h)
      · exact levelLoop_mono es d h

theorem levelLoop_mem {top : Bool} {e : Encl} (hi : inter e = 0 ∨ inter e = -1) : ∀ (l : List Encl) (d : Dep), e ∈ l →
    (∀ F ∈ l, inter F = -1 → F = e) → (e.id : Int) ∈ (levelLoop inter top l d).1.dep
  | [], d, h, _ => by cases h
  | F :: es, d, h, hu => by
    simp only [levelLoop]
    by_cases hF : F = e
    · subst hF
      split
      · split
        · exact levelLoop_mono es _ (Dep.mem_add.2 (.inl (Dep.mem_add.2 (.inr rfl))))
        · exact levelLoop_mono es _ (Dep.mem_add.2 (.inr rfl))
      · rw [if_pos (by omega)]
        exact Dep.mem_add.2 (.inr rfl)
    · have hm : e ∈ es := by
        rcases List.mem_cons.1 h with h' | h'
        · exact absurd h'.symm hF
        · exact h'
      have hu' : ∀ G ∈ es, inter G = -1 → G = e := fun G hG => hu G (by simp [hG])
      split
      · split
        · exact levelLoop_mem hi es _ hm hu'
        · exact levelLoop_mem hi es _ hm hu'
      · rw [if_neg (fun h' => hF (hu F (by simp) h'))]
        exact levelLoop_mem hi es _ hm hu'

theorem levelLoop_stop {top : Bool} : ∀ (l : List Encl) (d : Dep), (levelLoop inter top l d).2 = true ↔ ∃ F ∈ l, inter F = -1
  | [], d => by simp [levelLoop]
  | e :: es, d => by
    simp only [levelLoop]
    split
    · next h0 =>
      have : ¬ inter e = -1 := by omega
      split <;> rw [levelLoop_stop es] <;> simp [this]
    · split
      · next h => simp [h]
      · next h => rw [levelLoop_stop es]; simp [h]

theorem levelLoop_top : ∀ (l : List Encl) (d : Dep), (∀ F ∈ l, inter F ≠ -1) → (∃ e ∈ l, inter e = 0) → (-1 : Int) ∈ (levelLoop inter true l d).1.dep
  | [], d, _, h => by obtain ⟨e, h, _⟩ := h; cases h
  | F :: es, d, hn, h => by
    simp only [levelLoop, if_true]
    split
    · exact levelLoop_mono es _ (Dep.mem_add.2 (.inr rfl))
    · next h0 =>
      rw [if_neg (hn F (by simp))]
      obtain ⟨e, he, he0⟩ := h
      rcases List.mem_cons.1 he with rfl | he
      · exact absurd he0 h0
      · exact levelLoop_top es d (fun G hG => hn G (by simp [hG])) ⟨e, he, he0⟩

theorem levelLoop_exact {top : Bool} {x : Int} : ∀ (l : List Encl) (d : Dep), x ∈ (levelLoop inter top l d).1.dep →
    x ∈ d.dep ∨ (∃ e ∈ l, x = e.id ∧ (inter e = 0 ∨ inter e = -1)) ∨ (x = -1 ∧ top = true ∧ ∃ e ∈ l, inter e = 0)
  | [], d, h => .inl h
  | e :: es, d, h => by
    simp only [levelLoop] at h
    have up : ∀ d', x ∈ (levelLoop inter top es d').1.dep → x ∈ d'.dep ∨ (∃ e' ∈ e :: es, x = e'.id ∧ (inter e' = 0 ∨ inter e' = -1)) ∨
        (x = -1 ∧ top = true ∧ ∃ e' ∈ e :: es, inter e' = 0) := by
      intro d' h'
      rcases levelLoop_exact es d' h' with h1 | ⟨e', a, b⟩ | ⟨a, b, e', c, d⟩
      · exact .inl h1
      · exact .inr (.inl ⟨e', by simp [a], b⟩)
      · exact .inr (.inr ⟨a, b, e', by simp [c], d⟩)
    split at h
    · next h0 =>
      split at h
      · next ht =>
        rcases up _ h with h1 | h1 | h1
        · rcases Dep.mem_add.1 h1 with h1 | h1
          · rcases Dep.mem_add.1 h1 with h1 | h1
            · exact .inl h1
            · exact .inr (.inl ⟨e, by simp, h1, .inl h0⟩)
          · exact .inr (.inr ⟨h1, ht, e, by simp, h0⟩)
        · exact .inr (.inl h1)
        · exact .inr (.inr h1)
      · rcases up _ h with h1 | h1 | h1
        · rcases Dep.mem_add.1 h1 with h1 | h1
          · exact .inl h1
          · exact .inr (.inl ⟨e, by simp, h1, .inl h0⟩)
        · exact .inr (.inl h1)
        · exact .inr (.inr h1)
    · split at h
      · next h1 =>
        rcases Dep.mem_add.1 h with h2 | h2
        · exact .inl h2
        · exact .inr (.inl ⟨e, by simp, h2, .inr h1⟩)
      · exact up d h

theorem levelLoop_parent {top : Bool} : ∀ (l : List Encl) (d : Dep), (d.dep = [] ∨ d.parent ∈ d.dep) →
    ((levelLoop inter top l d).1.dep = [] ∨ (levelLoop inter top l d).1.parent ∈ (levelLoop inter top l d).1.dep)
  | [], d, h => h
  | e :: es, d, h => by
    have ha : ∀ (d : Dep) x, (d.add x).dep = [] ∨ (d.add x).parent ∈ (d.add x).dep := fun d x => .inr (Dep.mem_add.2 (.inr rfl))
    simp only [levelLoop]
    split
    · split
      · exact levelLoop_parent es _ (ha _ _)
      · exact levelLoop_parent es _ (ha _ _)
    · split
      · exact ha _ _
      · exact levelLoop_parent es d h

end level

section levels
variable {inter : Encl → Int}

theorem levelsLoop_mono {x : Int} : ∀ (ls : List (List Encl)) (d : Dep), x ∈ d.dep → x ∈ (levelsLoop inter ls d).dep
  | [], d, h => h
  | l :: ls, d, h => by
    simp only [levelsLoop]
    split
    · exact levelLoop_mono l d h
    · exact levelsLoop_mono ls _ (levelLoop_mono l d h)

/-- an enclosure met by the solid is recorded, unless the loop stopped before -/
theorem levelsLoop_mem {e : Encl} (hi : inter e = 0 ∨ inter e = -1) : ∀ (A : List (List Encl)) (l : List Encl) (B : List (List Encl)) (d : Dep),
    (∀ a ∈ A, ∀ F ∈ a, inter F ≠ -1) → e ∈ l → (∀ F ∈ l, inter F = -1 → F = e) → (e.id : Int) ∈ (levelsLoop inter (A ++ l :: B) d).dep
  | [], l, B, d, _, he, hu => by
    simp only [List.nil_append, levelsLoop]
    have := levelLoop_mem (top := B.isEmpty) hi l d he hu
    split
    · exact this
    · exact levelsLoop_mono B _ this
  | a :: A, l, B, d, hA, he, hu => by
    simp only [List.cons_append, levelsLoop]
    rw [if_neg]
    · exact levelsLoop_mem hi A l B _ (fun a' ha' => hA a' (by simp [ha'])) he hu
    · rw [levelLoop_stop]
      rintro ⟨F, hF, h⟩
      exact hA a (by simp) F hF h

/-- when the solid is inside no enclosure, the last level is reached -/
theorem levelsLoop_top : ∀ (A : List (List Encl)) (l : List Encl) (d : Dep), (∀ a ∈ A ++ [l], ∀ F ∈ a, inter F ≠ -1) →
    (∃ e ∈ l, inter e = 0) → (-1 : Int) ∈ (levelsLoop inter (A ++ [l]) d).dep
  | [], l, d, hA, h => by
    simp only [List.nil_append, levelsLoop, List.isEmpty_nil]
    have := levelLoop_top l d (hA l (by simp)) h
    split
    · exact this
    · exact this
  | a :: A, l, d, hA, h => by
    simp only [List.cons_append, levelsLoop]
    rw [if_neg]
    · exact levelsLoop_top A l _ (fun a' ha' => hA a' (by simp at ha' ⊢; exact .inr ha')) h
    · rw [levelLoop_stop]
      rintro ⟨F, hF, h'⟩
      exact hA a (by simp) F hF h'

theorem levelsLoop_exact {x : Int} : ∀ (ls : List (List Encl)) (d : Dep), x ∈ (levelsLoop inter ls d).dep →
    x ∈ d.dep ∨ (∃ l ∈ ls, ∃ e ∈ l, x = e.id ∧ (inter e = 0 ∨ inter e = -1)) ∨ (x = -1 ∧ ∃ l ∈ ls, ∃ e ∈ l, inter e = 0)
  | [], d, h => .inl h
  | l :: ls, d, h => by
    simp only [levelsLoop] at h
    have one : x ∈ (levelLoop inter ls.isEmpty l d).1.dep → x ∈ d.dep ∨ (∃ l' ∈ l :: ls, ∃ e ∈ l', x = e.id ∧ (inter e = 0 ∨ inter e = -1)) ∨
        (x = -1 ∧ ∃ l' ∈ l :: ls, ∃ e ∈ l', inter e = 0) := by
      intro h'
      rcases levelLoop_exact l d h' with h1 | h1 | ⟨a, _, b⟩
      · exact .inl h1
      · exact .inr (.inl ⟨l, by simp, h1⟩)
      · exact .inr (.inr ⟨a, l, by simp, b⟩)
    split at h
    · exact one h
    · rcases levelsLoop_exact ls _ h with h1 | ⟨l', a, b⟩ | ⟨a, l', b, c⟩
      · exact one h1
      · exact .inr (.inl ⟨l', by simp [a], b⟩)
      · exact .inr (.inr ⟨a, l', by simp [b], c⟩)

theorem levelsLoop_parent : ∀ (ls : List (List Encl)) (d : Dep), (d.dep = [] ∨ d.parent ∈ d.dep) →
    ((levelsLoop inter ls d).dep = [] ∨ (levelsLoop inter ls d).parent ∈ (levelsLoop inter ls d).dep)
  | [], d, h => h
  | l :: ls, d, h => by
    simp only [levelsLoop]
    split
    · exact levelLoop_parent l d h
    · exact levelsLoop_parent ls _ (levelLoop_parent l d h)

end levels

theorem assign_of_mem {inter : Encl → Int} {nested : List (List Encl)} {x : Int} (h : x ∈ (levelsLoop inter nested.reverse ⟨[], 0⟩).dep) :
    x ∈ (assign inter nested).dep := by
  unfold assign
  dsimp only
  split
  · next he => rw [List.isEmpty_iff] at he; rw [he] at h; cases h
  · exact h

theorem assign_parent (inter : Encl → Int) (nested : List (List Encl)) : (assign inter nested).parent ∈ (assign inter nested).dep := by
  unfold assign
  dsimp only
  have := levelsLoop_parent (inter := inter) nested.reverse ⟨[], 0⟩ (.inl rfl)
  split
  · exact Dep.mem_add.2 (.inr rfl)
  · next h =>
    rcases this with h' | h'
    · rw [h'] at h; exact absurd rfl h
    · exact h'

/-! ### Geometry of the hierarchy -/

section geo
variable {P : Type} {es : List Encl} {reg : Encl → P → Prop}

/-- the ancestor at a given depth, and the step below it -/
theorem ancestor (hp : Placed es reg) {e : Encl} {k : Nat} (h : Depth es e k) : ∀ j, 1 ≤ j → j < k →
    ∃ a b, Depth es a j ∧ b ∈ es ∧ b.parent = a.id ∧ ∀ p, reg e p → reg b p ∧ reg a p := by
  induction h with
  | top he h0 => intro j h1 h2; omega
  | @sub e e' k he hd hpar ih =>
    intro j h1 h2
    by_cases hj : j = k
    · subst hj
      exact ⟨e', e, hd, he, hpar, fun p hr => ⟨hr, hp.inside e he e' hd.mem hpar p hr⟩⟩
    · obtain ⟨a, b, x1, x2, x3, x4⟩ := ih j h1 (by omega)
      exact ⟨a, b, x1, x2, x3, fun p hr => x4 p (hp.inside e he e' hd.mem hpar p hr)⟩

theorem depth_one {e : Encl} (h : Depth es e 1) : e.parent = 0 := by
  cases h with
  | top _ h => exact h
  | sub _ hd _ => exact absurd hd.pos (by omega)

/-- two enclosures at the same depth have no common point -/
theorem same_depth (hp : Placed es reg) {p : P} : ∀ {k : Nat} {e e' : Encl}, Depth es e k → Depth es e' k → reg e p → reg e' p → e = e'
  | 0, e, _, h, _, _, _ => absurd h.pos (by omega)
  | 1, e, e', h, h', r, r' => hp.apart e h.mem e' h'.mem ((depth_one h).trans (depth_one h').symm) p r r'
  | k + 2, e, e', h, h', r, r' => by
    cases h with
    | @sub _ a _ he hd hpar =>
      cases h' with
      | @sub _ a' _ he' hd' hpar' =>
        have := same_depth hp hd hd' (hp.inside e he a hd.mem hpar p r) (hp.inside e' he' a' hd'.mem hpar' p r')
        subst this
        exact hp.apart e he e' he' (hpar.trans hpar'.symm) p r r'

/-- a point in the own region of `e` and in `F`: `F` is `e` or above it -/
theorem own_depth (hp : Placed es reg) {p : P} {e F : Encl} {k j : Nat} (he : Depth es e k) (ho : Own es reg e p) (hF : Depth es F j)
    (hr : reg F p) : j < k ∨ (j = k ∧ F = e) := by
  rcases Nat.lt_trichotomy j k with h | h | h
  · exact .inl h
  · subst h; exact .inr ⟨rfl, same_depth hp hF he hr ho.1⟩
  · obtain ⟨a, b, x1, x2, x3, x4⟩ := ancestor hp hF k he.pos h
    have : a = e := same_depth hp x1 he (x4 p hr).2 ho.1
    subst this
    exact absurd (x4 p hr).1 (ho.2 b x2 x3)

end geo

/-! ### Numbering -/

section num
variable {γ : Type}

theorem numberVoids_eq (en pa : Int) : ∀ (n : Int) (l : List γ),
    (numberVoids en pa n l).map (fun c => (c.encl, c.parent, c.cell)) = l.map (fun c => (en, pa, c)) ∧
      ∀ (i : Nat) (h : i < (numberVoids en pa n l).length), (numberVoids en pa n l)[i].id = n + i
  | n, [] => ⟨rfl, fun i h => by simp [numberVoids] at h⟩
  | n, c :: cs => by
    obtain ⟨h1, h2⟩ := numberVoids_eq en pa (n + 1) cs
    refine ⟨by simp [numberVoids, h1], fun i h => ?_⟩
    cases i with
    | zero => simp [numberVoids]
    | succ i =>
      simp only [numberVoids, List.length_cons] at h
      have := h2 i (by omega)
      simp only [numberVoids, List.getElem_cons_succ, this]
      omega

theorem numberVoids_length (en pa : Int) (n : Int) (l : List γ) : (numberVoids en pa n l).length = l.length := by
  have := congrArg List.length (numberVoids_eq en pa n l).1
  simpa using this

/-- identifiers in sequence -/
def Seq (n : Int) (l : List (VCell γ)) : Prop := ∀ (i : Nat) (h : i < l.length), l[i].id = n + i

theorem Seq.append {n : Int} {l l' : List (VCell γ)} (h : Seq n l) (h' : Seq (n + l.length) l') : Seq n (l ++ l') := by
  intro i hi
  by_cases hl : i < l.length
  · rw [List.getElem_append_left hl]; exact h i hl
  · rw [List.getElem_append_right (by omega), h' (i - l.length) (by simp at hi; omega)]
    omega

theorem numberEncls_eq (f : Encl → List γ) (extra : List (List γ)) : ∀ (n : Int) (es : List Encl),
    ∃ r, numberEncls n es (es.map f ++ extra) = some (r, n + r.length) ∧ Seq n r ∧
      r.map (fun c => (c.encl, c.parent, c.cell)) = es.flatMap fun e => (f e).map fun c => ((e.id : Int), (e.parent : Int), c)
  | n, [] => ⟨[], by simp [numberEncls], fun i h => by simp at h, rfl⟩
  | n, e :: es => by
    obtain ⟨r, h1, h2, h3⟩ := numberEncls_eq f extra (n + (f e).length) es
    have hl := numberVoids_length (γ := γ) e.id e.parent n (f e)
    refine ⟨numberVoids e.id e.parent n (f e) ++ r, ?_, ?_, ?_⟩
    · simp only [List.map_cons, List.cons_append, numberEncls, h1]
      simp [hl, Int.add_assoc]
    · exact Seq.append (numberVoids_eq _ _ _ _).2 (by rw [hl]; exact h2)
    · simp [h3, (numberVoids_eq (γ := γ) e.id e.parent n (f e)).1]

end num

/-! ### The innermost enclosure -/

section own
variable {P : Type} {es : List Encl} {reg : Encl → P → Prop}

theorem own_unique (hp : Placed es reg) {p : P} {e e' : Encl} {k k' : Nat} (he : Depth es e k) (he' : Depth es e' k') (h : Own es reg e p)
    (h' : Own es reg e' p) : e = e' := by
  rcases own_depth hp he h he' h'.1 with a | ⟨_, a⟩
  · rcases own_depth hp he' h' he h.1 with b | ⟨_, b⟩
    · omega
    · exact b
  · exact a.symm

theorem own_exists {p : P} (N : Nat) (hN : ∀ e k, Depth es e k → k ≤ N) : ∀ (m : Nat) (e : Encl) (k : Nat), N - k = m → Depth es e k → reg e p →
    ∃ e0 ∈ es, Own es reg e0 p := by
  intro m
  induction m with
  | zero =>
    intro e k hm hd hr
    refine ⟨e, hd.mem, hr, fun c hc hpar hrc => ?_⟩
    have h1 := hN c (k + 1) (.sub hc hd hpar)
    omega
  | succ m ih =>
    intro e k hm hd hr
    by_cases h : ∃ c ∈ es, c.parent = e.id ∧ reg c p
    · obtain ⟨c, hc, hpar, hrc⟩ := h
      exact ih c (k + 1) (by omega) (.sub hc hd hpar) hrc
    · exact ⟨e, hd.mem, hr, fun c hc hpar hrc => h ⟨c, hc, hpar, hrc⟩⟩

theorem top_holds (hp : Placed es reg) {p : P} {e : Encl} {k : Nat} (hd : Depth es e k) (hr : reg e p) : ∃ a ∈ es, a.parent = 0 ∧ reg a p := by
  by_cases h1 : k = 1
  · subst h1; exact ⟨e, hd.mem, depth_one hd, hr⟩
  · obtain ⟨a, b, x1, _, _, x4⟩ := ancestor hp hd 1 (Nat.le_refl 1) (by have := hd.pos; omega)
    exact ⟨a, x1.mem, depth_one x1, (x4 p hr).2⟩

end own

/-! ### Counting -/

theorem countP_flatMap_zero {α β : Type} (q : β → Bool) (f : α → List β) : ∀ (l : List α), (∀ a ∈ l, (f a).countP q = 0) → (l.flatMap f).countP q = 0
  | [], _ => rfl
  | a :: l, h => by
    rw [List.flatMap_cons, List.countP_append, h a (by simp), countP_flatMap_zero q f l fun b hb => h b (by simp [hb])]

theorem countP_flatMap_one {α β : Type} (q : β → Bool) (f : α → List β) (x : α) : ∀ (l : List α), l.Nodup → x ∈ l → (f x).countP q = 1 →
    (∀ a ∈ l, a ≠ x → (f a).countP q = 0) → (l.flatMap f).countP q = 1
  | [], _, hx, _, _ => by cases hx
  | a :: l, hn, hx, h1, h0 => by
    rw [List.flatMap_cons, List.countP_append]
    rw [List.nodup_cons] at hn
    rcases List.mem_cons.1 hx with hxa | hxl
    · subst hxa
      rw [h1, countP_flatMap_zero q f l fun b hb => h0 b (by simp [hb]) fun hbx => hn.1 (hbx ▸ hb)]
    · rw [h0 a (by simp) fun hax => hn.1 (hax ▸ hxl), countP_flatMap_one q f x l hn.2 hxl h1 fun b hb => h0 b (by simp [hb])]

end Geouned.Encl
