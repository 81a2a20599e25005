import Verif.Poly.Lemmas5
/-! Lemmas about `plane_definition` -/
namespace Geouned.Poly
open Geouned Geouned.Text

/-- two calls of `change_surf`, first with a sequence -/
theorem twice {old : Int} (h0 : old ≠ 0) {a : Seq} (ha : a.NoBool) (hal : IsLst a) {new : New} (hnew : new.Fine) {P : Nat → Prop}
    (hP : ¬ P old.natAbs) (hoa : ∀ v, a.Occurs v → P v) (hon : ∀ n, new.Has n → P n.natAbs) {d : Seq} (hd : d.NoBool) (hdl : IsLst d) :
    ∃ d', (do let d1 ← change old (.seq a) d; change (-old) new d1 : M Seq) = .ok d' ∧ Clean d' ∧ (∀ n, d' ≠ .int n) ∧
      (∀ n, Has n d' → (Has n d ∧ n.natAbs ≠ old.natAbs) ∨ P n.natAbs) ∧
      (∀ ρ, (Has old d → lit ρ old = true → a.sem ρ = true) → (new = .bool false → ¬ Has (-old) d) → (Has (-old) d → lit ρ (-old) = true → new.sem ρ = true) →
        d.sem ρ = true → d'.sem ρ = true) ∧
      (∀ ρ, (Has old d → a.sem ρ = true → lit ρ old = true) → (new = .bool true → ¬ Has (-old) d) → (Has (-old) d → new.sem ρ = true → lit ρ (-old) = true) →
        d'.sem ρ = true → d.sem ρ = true) := by
  have fa : (New.seq a).Fine := ⟨ha, by obtain ⟨o, l, es, rfl⟩ := hal; simp⟩
  have F := fun ρ => chg_facts ρ old (.seq a) fa d hd (by obtain ⟨o, l, es, rfl⟩ := hdl; simp)
  have hnb1 := (F fun _ => true).keep a rfl
  have hl1 : ∀ n, chg old (.seq a) d ≠ .int n := (F fun _ => true).seq
  have G := fun ρ => chg_facts ρ (-old) new hnew (chg old (.seq a) d) hnb1 hl1
  have e1 : change old (.seq a) d = .ok (chg old (.seq a) d) := by obtain ⟨o, l, es, rfl⟩ := hdl; rfl
  have e2 : change (-old) new (chg old (.seq a) d) = .ok (chg (-old) new (chg old (.seq a) d)) := by
    cases hc : chg old (.seq a) d with
    | int n => rfl
    | boo o l b => rw [hc] at hnb1; simp [Seq.NoBool] at hnb1
    | lst o l es => rfl
  have hback : Has (-old) (chg old (.seq a) d) → Has (-old) d := by
    intro h
    rcases (F fun _ => true).has _ h with h | h
    · exact h.1
    · exact absurd (by simpa using hoa _ (has_occurs h)) hP
  refine ⟨_, by rw [e1]; exact e2, (G fun _ => true).clean, (G fun _ => true).seq, fun n hn => ?_, fun ρ h1 h2 h3 h4 => ?_, fun ρ h1 h2 h3 h4 => ?_⟩
  · rcases (G fun _ => true).has n hn with ⟨h1, h2⟩ | h1
    · rcases (F fun _ => true).has n h1 with ⟨h3, h4⟩ | h3
      · exact .inl ⟨h3, by omega⟩
      · exact .inr (hoa _ (has_occurs h3))
    · exact .inr (hon n h1)
  · exact (G ρ).up (fun e h => h2 e (hback h)) (fun h => h3 (hback h)) ((F ρ).up (by simp) h1 h4)
  · exact (F ρ).down (by simp) h1 ((G ρ).down (fun e h => h2 e (hback h)) (fun h => h3 (hback h)) h4)

/-- what is known after the changes for one surface -/
structure Replaced (s : Nat) (P : Nat → Prop) (d d' : Seq) : Prop where
  clean : Clean d'
  seq : ∀ n, d' ≠ .int n
  has : ∀ n, Has n d' → (Has n d ∧ n.natAbs ≠ s) ∨ P n.natAbs

theorem replace_forward {s : Nat} (hs : s ≠ 0) {two : Bool} {P : Nat → Prop} {V : Side → Prop} {c : Seq × Seq} (hc : Pair P V c) (hP : ¬ P s)
    {d : Seq} (hd : d.NoBool) (hdl : IsLst d) :
    ∃ d', replace .forward s two c.1 c.2 d = .ok d' ∧ Replaced s P d d' ∧
      ∀ ρ, (Has (-(s : Int)) d → ρ s = false → V ρ) → (two = true → Has s d → ρ s = true → ¬ V ρ) → d.sem ρ = true → d'.sem ρ = true := by
  have hn : -(s : Int) ≠ 0 := by omega
  have hl1 : ∀ ρ, lit ρ (-(s : Int)) = !ρ s := fun ρ => lit_neg ρ hs
  cases two with
  | true =>
    obtain ⟨d', h1, h2, h3, h4, h5, -⟩ := twice hn hc.nb1 hc.lst1 (new := .seq c.2) ⟨hc.nb2, by obtain ⟨o, l, es, h⟩ := hc.lst2; rw [h]; simp⟩ (P := P)
      (by simpa using hP) hc.occ1 (fun n h => hc.occ2 _ (has_occurs h)) hd hdl
    rw [Int.neg_neg] at h1
    refine ⟨d', h1, ⟨h2, h3, by simpa using h4⟩, fun ρ g1 g2 g3 => h5 ρ (fun ha hb => ?_) (by simp) (fun ha hb => ?_) g3⟩
    · rw [hc.sem1]; rw [hl1] at hb; exact g1 ha (by simpa using hb)
    · rw [Int.neg_neg] at ha hb
      show c.2.sem ρ = true
      rw [hc.sem2]; rw [lit_ofNat] at hb; exact g2 rfl ha hb
  | false =>
    obtain ⟨d', h1, h2, h3, h4, h5, -⟩ := twice hn hc.nb1 hc.lst1 (new := .bool true) trivial (P := P)
      (by simpa using hP) hc.occ1 (fun n h => h.elim) hd hdl
    rw [Int.neg_neg] at h1
    refine ⟨d', h1, ⟨h2, h3, by simpa using h4⟩, fun ρ g1 g2 g3 => h5 ρ (fun ha hb => ?_) (by simp) (fun _ _ => rfl) g3⟩
    rw [hc.sem1]; rw [hl1] at hb; exact g1 ha (by simpa using hb)

theorem replace_reversed {s : Nat} (hs : s ≠ 0) {two : Bool} {P : Nat → Prop} {V : Side → Prop} {c : Seq × Seq} (hc : Pair P V c) (hP : ¬ P s)
    {d : Seq} (hd : d.NoBool) (hdl : IsLst d) :
    ∃ d', replace .reversed s two c.1 c.2 d = .ok d' ∧ Replaced s P d d' ∧
      ∀ ρ, (Has s d → ¬ V ρ → ρ s = true) → (two = true → Has (-(s : Int)) d → V ρ → ρ s = false) → d'.sem ρ = true → d.sem ρ = true := by
  have hn : (s : Int) ≠ 0 := by omega
  have hl1 : ∀ ρ, lit ρ (-(s : Int)) = !ρ s := fun ρ => lit_neg ρ hs
  cases two with
  | true =>
    obtain ⟨d', h1, h2, h3, h4, -, h5⟩ := twice hn hc.nb2 hc.lst2 (new := .seq c.1) ⟨hc.nb1, by obtain ⟨o, l, es, h⟩ := hc.lst1; rw [h]; simp⟩ (P := P)
      (by simpa using hP) hc.occ2 (fun n h => hc.occ1 _ (has_occurs h)) hd hdl
    refine ⟨d', h1, ⟨h2, h3, by simpa using h4⟩, fun ρ g1 g2 g3 => h5 ρ (fun ha hb => ?_) (by simp) (fun ha hb => ?_) g3⟩
    · rw [lit_ofNat]; rw [hc.sem2] at hb; exact g1 ha hb
    · have hb : c.1.sem ρ = true := hb
      rw [hc.sem1] at hb
      rw [hl1, g2 rfl ha hb]; rfl
  | false =>
    obtain ⟨d', h1, h2, h3, h4, -, h5⟩ := twice hn hc.nb2 hc.lst2 (new := .bool false) trivial (P := P)
      (by simpa using hP) hc.occ2 (fun n h => h.elim) hd hdl
    refine ⟨d', h1, ⟨h2, h3, by simpa using h4⟩, fun ρ g1 g2 g3 => h5 ρ (fun ha hb => ?_) (by simp) (fun _ hb => by simp [New.sem] at hb) g3⟩
    rw [lit_ofNat]; rw [hc.sem2] at hb; exact g1 ha hb

theorem replace_undefined {s : Nat} (hs : s ≠ 0) {two : Bool} {P : Nat → Prop} {V : Side → Prop} {c : Seq × Seq} (hc : Pair P V c) (hP : ¬ P s)
    {d : Seq} (hd : d.NoBool) (hdl : IsLst d) :
    ∃ d', replace .undefined s two c.1 c.2 d = .ok d' ∧ Replaced s P d d' ∧
      ∀ ρ, (V ρ ↔ ρ s = false) → (d'.sem ρ = true ↔ d.sem ρ = true) := by
  have hn : (s : Int) ≠ 0 := by omega
  have hl1 : ∀ ρ, lit ρ (-(s : Int)) = !ρ s := fun ρ => lit_neg ρ hs
  obtain ⟨d', h1, h2, h3, h4, h5, h6⟩ := twice hn hc.nb2 hc.lst2 (new := .seq c.1) ⟨hc.nb1, by obtain ⟨o, l, es, h⟩ := hc.lst1; rw [h]; simp⟩ (P := P)
    (by simpa using hP) hc.occ2 (fun n h => hc.occ1 _ (has_occurs h)) hd hdl
  refine ⟨d', h1, ⟨h2, h3, by simpa using h4⟩, fun ρ g => ⟨h6 ρ (fun _ hb => ?_) (by simp) (fun _ hb => ?_), h5 ρ (fun _ hb => ?_) (by simp) (fun _ hb => ?_)⟩⟩
  · rw [hc.sem2, g] at hb; rw [lit_ofNat]; simpa using hb
  · have hb : c.1.sem ρ = true := hb
    rw [hc.sem1, g] at hb; rw [hl1, hb]; rfl
  · rw [hc.sem2, g]; rw [lit_ofNat] at hb; simpa using hb
  · show c.1.sem ρ = true
    rw [hc.sem1, g]; rw [hl1] at hb; simpa using hb

/-- no surface is replaced by a boolean -/
def Plain (o : Orient) (d : Seq) (s : Nat) (two : Bool) : Prop :=
  match o with
  | .forward => two = false → ¬ Has s d
  | .reversed => two = false → ¬ Has (-(s : Int)) d
  | .undefined => True

theorem replace_exact {o : Orient} {s : Nat} (hs : s ≠ 0) {two : Bool} {P : Nat → Prop} {V : Side → Prop} {c : Seq × Seq} (hc : Pair P V c) (hP : ¬ P s)
    {d d' : Seq} (hd : d.NoBool) (hdl : IsLst d) (hp : Plain o d s two) (h : replace o s two c.1 c.2 d = .ok d') (ρ : Side) (g : V ρ ↔ ρ s = false) :
    d'.sem ρ = d.sem ρ := by
  have hn : (s : Int) ≠ 0 := by omega
  have hn' : -(s : Int) ≠ 0 := by omega
  have hl1 : lit ρ (-(s : Int)) = !ρ s := lit_neg ρ hs
  have f1 : (New.seq c.1).Fine := ⟨hc.nb1, by obtain ⟨o, l, es, h⟩ := hc.lst1; rw [h]; simp⟩
  have f2 : (New.seq c.2).Fine := ⟨hc.nb2, by obtain ⟨o, l, es, h⟩ := hc.lst2; rw [h]; simp⟩
  have s1 : lit ρ (-(s : Int)) = true ↔ c.1.sem ρ = true := by rw [hl1, hc.sem1, g]; simp
  have s2 : lit ρ (s : Int) = true ↔ c.2.sem ρ = true := by rw [lit_ofNat, hc.sem2, g]; simp
  have fin : ∀ {a b : Bool}, (a = true → b = true) → (b = true → a = true) → a = b := by intro a b; cases a <;> cases b <;> simp
  cases o with
  | forward =>
    cases two with
    | true =>
      obtain ⟨x, h1, -, -, -, h5, h6⟩ := twice hn' hc.nb1 hc.lst1 f2 (P := P) (by simpa using hP) hc.occ1 (fun n h => hc.occ2 _ (has_occurs h)) hd hdl
      rw [Int.neg_neg] at h1 h5 h6
      simp only [replace, if_true] at h
      rw [h1] at h; cases h
      exact fin (h6 ρ (fun _ => s1.2) (by simp) (fun _ => s2.2)) (h5 ρ (fun _ => s1.1) (by simp) (fun _ => s2.1))
    | false =>
      obtain ⟨x, h1, -, -, -, h5, h6⟩ := twice hn' hc.nb1 hc.lst1 (new := .bool true) trivial (P := P) (by simpa using hP) hc.occ1 (fun n h => h.elim) hd hdl
      rw [Int.neg_neg] at h1 h5 h6
      simp only [replace, Bool.false_eq_true, if_false] at h
      rw [h1] at h; cases h
      have hp := hp rfl
      exact fin (h6 ρ (fun _ => s1.2) (fun _ => hp) (fun a => absurd a hp)) (h5 ρ (fun _ => s1.1) (fun _ => hp) (fun a => absurd a hp))
  | reversed =>
    cases two with
    | true =>
      obtain ⟨x, h1, -, -, -, h5, h6⟩ := twice hn hc.nb2 hc.lst2 f1 (P := P) (by simpa using hP) hc.occ2 (fun n h => hc.occ1 _ (has_occurs h)) hd hdl
      simp only [replace, if_true] at h
      rw [h1] at h; cases h
      exact fin (h6 ρ (fun _ => s2.2) (by simp) (fun _ => s1.2)) (h5 ρ (fun _ => s2.1) (by simp) (fun _ => s1.1))
    | false =>
      obtain ⟨x, h1, -, -, -, h5, h6⟩ := twice hn hc.nb2 hc.lst2 (new := .bool false) trivial (P := P) (by simpa using hP) hc.occ2 (fun n h => h.elim) hd hdl
      simp only [replace, Bool.false_eq_true, if_false] at h
      rw [h1] at h; cases h
      have hp := hp rfl
      exact fin (h6 ρ (fun _ => s2.2) (fun _ => hp) (fun a => absurd a hp)) (h5 ρ (fun _ => s2.1) (fun _ => hp) (fun a => absurd a hp))
  | undefined =>
    obtain ⟨x, h1, -, -, -, h5, h6⟩ := twice hn hc.nb2 hc.lst2 f1 (P := P) (by simpa using hP) hc.occ2 (fun n h => hc.occ1 _ (has_occurs h)) hd hdl
    simp only [replace] at h
    rw [h1] at h; cases h
    exact fin (h6 ρ (fun _ => s2.2) (by simp) (fun _ => s1.2)) (h5 ρ (fun _ => s2.1) (by simp) (fun _ => s1.1))

/-- the orientation and the conditions under which the planes of one surface are on the right side of it -/
def Good (o : Orient) (ρ : Side) (d : Seq) (s : Nat) (g : Group Nat) : Prop :=
  match o with
  | .forward => (Has (-(s : Int)) d → ρ s = false → g.Inside fun p => ρ p = true) ∧ (g.twoSided = true → Has s d → ρ s = true → ¬ g.Inside fun p => ρ p = true)
  | .reversed => (Has s d → (¬ g.Inside fun p => ρ p = true) → ρ s = true) ∧ (g.twoSided = true → Has (-(s : Int)) d → (g.Inside fun p => ρ p = true) → ρ s = false)
  | .undefined => (g.Inside fun p => ρ p = true) ↔ ρ s = false

/-- what holds of the result of the whole, for the orientation -/
def Result (o : Orient) (ρ : Side) (d r : Seq) : Prop :=
  match o with
  | .forward => d.sem ρ = true → r.sem ρ = true
  | .reversed => r.sem ρ = true → d.sem ρ = true
  | .undefined => r.sem ρ = true ↔ d.sem ρ = true

theorem Result.trans {o : Orient} {ρ : Side} {a b c : Seq} (h1 : Result o ρ a b) (h2 : Result o ρ b c) : Result o ρ a c := by
  cases o with
  | forward => exact fun h => h2 (h1 h)
  | reversed => exact fun h => h1 (h2 h)
  | undefined => exact Iff.trans h2 h1

theorem Result.of_eq {o : Orient} {ρ : Side} {a b : Seq} (h : b.sem ρ = a.sem ρ) : Result o ρ a b := by
  cases o <;> simp [Result, h]

theorem Good.mono {o : Orient} {ρ : Side} {d d' : Seq} {s : Nat} {g : Group Nat} (h : Good o ρ d s g) (h1 : Has s d' → Has s d)
    (h2 : Has (-(s : Int)) d' → Has (-(s : Int)) d) : Good o ρ d' s g := by
  cases o with
  | forward => exact ⟨fun a => h.1 (h2 a), fun a b => h.2 a (h1 b)⟩
  | reversed => exact ⟨fun a => h.1 (h1 a), fun a b => h.2 a (h2 b)⟩
  | undefined => exact h

theorem replace_any (o : Orient) {s : Nat} (hs : s ≠ 0) {g : Group Nat} {c : Seq × Seq} (hc : Pair (· ∈ g.nums) (fun σ => g.Inside fun p => σ p = true) c)
    (hP : s ∉ g.nums) {d : Seq} (hd : d.NoBool) (hdl : IsLst d) :
    ∃ d', replace o s g.twoSided c.1 c.2 d = .ok d' ∧ Replaced s (· ∈ g.nums) d d' ∧ ∀ ρ, Good o ρ d s g → Result o ρ d d' := by
  cases o with
  | forward =>
    obtain ⟨d', h1, h2, h3⟩ := replace_forward (two := g.twoSided) hs hc hP hd hdl
    exact ⟨d', h1, h2, fun ρ h => h3 ρ h.1 h.2⟩
  | reversed =>
    obtain ⟨d', h1, h2, h3⟩ := replace_reversed (two := g.twoSided) hs hc hP hd hdl
    exact ⟨d', h1, h2, fun ρ h => h3 ρ h.1 h.2⟩
  | undefined =>
    obtain ⟨d', h1, h2, h3⟩ := replace_undefined (two := g.twoSided) hs hc hP hd hdl
    exact ⟨d', h1, h2, fun ρ h => h3 ρ h⟩

theorem planeDefinition_spec (o : Orient) (N : Nat) : ∀ (dict : List (Nat × Group Nat)) (d : Seq),
    (∀ x ∈ dict, x.1 ≠ 0 ∧ x.1 ≤ N ∧ x.2.Ok ∧ ∀ p ∈ x.2.nums, N < p) → Clean d → (∀ n, d ≠ .int n) →
    ∃ r, planeDefinition o dict d = .ok r ∧ (∀ n, r ≠ .int n) ∧
      (∀ n, Has n r → (Has n d ∧ ∀ x ∈ dict, x.2 ≠ .flat [] → n.natAbs ≠ x.1) ∨ ∃ x ∈ dict, n.natAbs ∈ x.2.nums) ∧
      (∀ ρ, (∀ x ∈ dict, Good o ρ d x.1 x.2) → Result o ρ d r) ∧
      ∀ ρ, (∀ x ∈ dict, x.2 ≠ .flat [] → Plain o d x.1 x.2.twoSided ∧ ((x.2.Inside fun p => ρ p = true) ↔ ρ x.1 = false)) → r.sem ρ = d.sem ρ := by
  intro dict
  induction dict with
  | nil =>
    intro d _ hc hn
    rcases hc with ⟨op, l, b, rfl⟩ | hb
    · exact ⟨.boo op 0 b, rfl, fun n => by simp, fun n h => by simp [Has] at h, fun ρ _ => Result.of_eq rfl, fun _ _ => rfl⟩
    · have hl : IsLst d := by
        cases d with
        | int n => exact absurd rfl (hn n)
        | boo _ _ _ => simp [Seq.NoBool] at hb
        | lst op l es => exact ⟨_, _, _, rfl⟩
      obtain ⟨r, h1, h2⟩ := joinOps_joined d.depth.succ d (Nat.le_succ _) hl hb
      refine ⟨r, h1, fun n => ?_, fun n h => .inl ⟨h2.has n h, by simp⟩, fun ρ _ => Result.of_eq (h2.sem ρ), fun ρ _ => h2.sem ρ⟩
      obtain ⟨_, _, _, e⟩ := h2.lst
      rw [e]; simp
  | cons x dict ih =>
    intro d hx hc hn
    obtain ⟨s, g⟩ := x
    have hx' : ∀ x ∈ dict, x.1 ≠ 0 ∧ x.1 ≤ N ∧ x.2.Ok ∧ ∀ p ∈ x.2.nums, N < p := fun x h => hx x (by simp [h])
    by_cases hg : g = .flat []
    · subst hg
      obtain ⟨r, h1, h2, h3, h4, h5⟩ := ih d hx' hc hn
      refine ⟨r, by rw [planeDefinition, h1], h2, fun n h => ?_, fun ρ h => h4 ρ fun x hx => h x (by simp [hx]),
        fun ρ h => h5 ρ fun x hx => h x (by simp [hx])⟩
      rcases h3 n h with ⟨k1, k2⟩ | ⟨x, k1, k2⟩
      · refine .inl ⟨k1, fun x hx hne => ?_⟩
        rcases List.mem_cons.1 hx with rfl | hx
        · exact absurd rfl hne
        · exact k2 x hx hne
      · exact .inr ⟨x, by simp [k1], k2⟩
    · obtain ⟨hs0, hsN, hok, hnums⟩ := hx (s, g) (by simp)
      obtain ⟨q, i1, i2⟩ := inside_made hok hg (fun p hp => by have := hnums p hp; omega)
      rcases hc with ⟨op, l, b, rfl⟩ | hb
      · have hu : planeDefinition o ((s, g) :: dict) (.boo op l b) = .ok (.boo op l b) := by
          rw [planeDefinition]
          · rw [i1]; rfl
          · intro e; exact hg e
        exact ⟨_, hu, fun n => by simp, fun n h => by simp [Has] at h, fun ρ _ => Result.of_eq rfl, fun _ _ => rfl⟩
      · have hl : IsLst d := by
          cases d with
          | int n => exact absurd rfl (hn n)
          | boo _ _ _ => simp [Seq.NoBool] at hb
          | lst op l es => exact ⟨_, _, _, rfl⟩
        obtain ⟨c, c1, c2⟩ := complement_pair i2
        have hsg : s ∉ g.nums := fun h => by have := hnums s h; omega
        obtain ⟨d', r1, r2, r3⟩ := replace_any o hs0 c2 hsg hb hl
        obtain ⟨r, h1, h2, h3, h4, h5⟩ := ih d' hx' r2.clean r2.seq
        have back : ∀ x ∈ dict, ∀ n : Int, n.natAbs = x.1 → Has n d' → Has n d := by
          intro x hx n hnx k
          have hN := (hx' x hx).2.1
          rcases r2.has _ k with k | k
          · exact k.1
          · have := hnums _ k; omega
        have hu' : planeDefinition o ((s, g) :: dict) d = .ok r := by
          obtain ⟨op, l, es, rfl⟩ := hl
          rw [planeDefinition]
          · rw [i1]
            show (complement q >>= _) = _
            rw [c1]
            show (replace o s g.twoSided c.1 c.2 _ >>= _) = _
            rw [r1]
            exact h1
          · intro e; exact hg e
        refine ⟨r, hu', h2, fun n h => ?_, fun ρ h => ?_, fun ρ h => ?_⟩
        · rcases h3 n h with ⟨k1, k2⟩ | ⟨x, k1, k2⟩
          · rcases r2.has n k1 with ⟨k3, k4⟩ | k3
            · refine .inl ⟨k3, fun x hx hne => ?_⟩
              rcases List.mem_cons.1 hx with rfl | hx
              · exact k4
              · exact k2 x hx hne
            · exact .inr ⟨(s, g), by simp, k3⟩
          · exact .inr ⟨x, by simp [k1], k2⟩
        · refine (r3 ρ (h (s, g) (by simp))).trans (h4 ρ fun x hx => ?_)
          exact (h x (by simp [hx])).mono (back x hx _ (by simp)) (back x hx _ (by simp))
        · have hsg' := h (s, g) (by simp) hg
          rw [← replace_exact hs0 c2 hsg hb hl hsg'.1 r1 ρ hsg'.2]
          refine h5 ρ fun x hx hne => ?_
          obtain ⟨k1, k2⟩ := h x (by simp [hx]) hne
          refine ⟨?_, k2⟩
          cases o with
          | forward => exact fun a b => k1 a (back x hx _ (by simp) b)
          | reversed => exact fun a b => k1 a (back x hx _ (by simp) b)
          | undefined => trivial

end Geouned.Poly
