import Verif.Load.Spec
import Mathlib.Data.List.Induction
import Mathlib.Tactic.Ring
/-!
# Lemmas on the reading of labels
-/
namespace Geouned.Load

theorem digVal_number (ds : List Char) : digVal ds = number ds := by
  induction ds using List.reverseRecOn with
  | nil => rfl
  | append_singleton ds c ih =>
    have h1 : digVal (ds ++ [c]) = 10 * digVal ds + (c.toNat - 48) := by
      unfold digVal
      rw [List.foldl_append]
      rfl
    rw [h1, ih]
    unfold number
    rw [List.reverse_append, List.reverse_singleton, List.singleton_append, List.map_cons, Nat.ofDigits_cons]
    have : ('0' : Char).toNat = 48 := rfl
    rw [this]
    push_cast
    ring

theorem matchText_iff : ∀ (pre t r : List Char), matchText pre t = some r ↔ t = pre ++ r
  | [], t, r => by simp [matchText]
  | c :: p, [], r => by simp [matchText]
  | c :: p, d :: t, r => by
    unfold matchText
    split
    · next h => subst h; rw [matchText_iff p t r]; simp
    · next h =>
      simp only [List.cons_append, List.cons.injEq, false_iff, not_and, reduceCtorEq]
      intro h'
      exact absurd h'.symm h

theorem span_digits {ds rest : List Char} (h : ∀ c ∈ ds, c.isDigit = true) {x : Char} (hx : x.isDigit = false) :
    (ds ++ x :: rest).takeWhile Char.isDigit = ds ∧ (ds ++ x :: rest).dropWhile Char.isDigit = x :: rest := by
  induction ds with
  | nil => simp [hx]
  | cons d ds ih =>
    have hd := h d List.mem_cons_self
    have := ih (fun c hc => h c (List.mem_cons_of_mem _ hc))
    simp [hd, this]

theorem mem_digits : ∀ {t : List Char} {c : Char}, c ∈ t.takeWhile Char.isDigit → c.isDigit = true
  | [], _, h => by simp at h
  | d :: t, c, h => by
    rw [List.takeWhile_cons] at h
    split at h
    · next hd =>
      rcases List.mem_cons.mp h with rfl | h
      · exact hd
      · exact mem_digits h
    · cases h

theorem span_split (t : List Char) : t = t.takeWhile Char.isDigit ++ t.dropWhile Char.isDigit ∧ ∀ c ∈ t.takeWhile Char.isDigit, c.isDigit = true :=
  ⟨(List.takeWhile_append_dropWhile).symm, fun _ hc => mem_digits hc⟩

theorem matchNum_iff (t ds rest : List Char) : matchNum t = some (ds, rest) ↔ t = ds ++ '_' :: rest ∧ Digits ds := by
  constructor
  · intro h
    unfold matchNum at h
    split at h
    · cases h
    · next hne =>
      split at h
      · next r hr =>
        simp only [Option.some.injEq, Prod.mk.injEq] at h
        obtain ⟨rfl, rfl⟩ := h
        obtain ⟨e, hd⟩ := span_split t
        rw [hr] at e
        exact ⟨e, hne, hd⟩
      · cases h
  · rintro ⟨rfl, hne, hd⟩
    obtain ⟨e1, e2⟩ := span_digits (rest := rest) hd (x := '_') (by decide)
    unfold matchNum
    rw [e1, if_neg hne, e2]
    rfl

theorem matchPair_iff (t : List Char) (p : Nat × Nat) : matchPair t = some p ↔ ReadsPair [] t p := by
  constructor
  · intro h
    unfold matchPair at h
    split at h
    · cases h
    · next ds rest e =>
      obtain ⟨⟨es, q⟩, h1, rfl⟩ := Option.map_eq_some_iff.mp h
      obtain ⟨rfl, d1⟩ := (matchNum_iff _ _ _).mp e
      obtain ⟨rfl, d2⟩ := (matchNum_iff _ _ _).mp h1
      exact ⟨ds, es, q, by simp, d1, d2, by rw [digVal_number, digVal_number]⟩
  · rintro ⟨ds, es, rest, rfl, d1, d2, rfl⟩
    have h1 : matchNum ([] ++ ds ++ '_' :: es ++ '_' :: rest) = some (ds, es ++ '_' :: rest) := (matchNum_iff _ _ _).mpr ⟨by simp, d1⟩
    have h2 : matchNum (es ++ '_' :: rest) = some (es, rest) := (matchNum_iff _ _ _).mpr ⟨rfl, d2⟩
    unfold matchPair
    rw [h1]
    dsimp only
    rw [h2, Option.map_some, digVal_number, digVal_number]

theorem matchDec_iff (t ds es : List Char) :
    matchDec t = some (ds, es) ↔ ∃ rest, t = ds ++ '.' :: es ++ '_' :: rest ∧ (∀ c ∈ ds, c.isDigit = true) ∧ ∀ c ∈ es, c.isDigit = true := by
  constructor
  · intro h
    unfold matchDec at h
    split at h
    · next r hr =>
      split at h
      · next r2 hr2 =>
        simp only [Option.some.injEq, Prod.mk.injEq] at h
        obtain ⟨rfl, rfl⟩ := h
        obtain ⟨e, hd⟩ := span_split t
        obtain ⟨e', hd'⟩ := span_split r
        rw [hr] at e
        rw [hr2] at e'
        exact ⟨r2, by rw [List.append_assoc, List.cons_append, ← e']; exact e, hd, hd'⟩
      · cases h
    · cases h
  · rintro ⟨rest, rfl, h1, h2⟩
    obtain ⟨e1, e2⟩ := span_digits (rest := es ++ '_' :: rest) h1 (x := '.') (by decide)
    obtain ⟨e3, e4⟩ := span_digits (rest := rest) h2 (x := '_') (by decide)
    unfold matchDec
    rw [show ds ++ '.' :: es ++ '_' :: rest = ds ++ '.' :: (es ++ '_' :: rest) by simp, e2]
    simp only [e4, e1, e3]

/-- `search` finds the first place -/
theorem search_iff {α : Type} {m : List Char → Option α} {P : List Char → α → Prop} (hm : ∀ t x, m t = some x ↔ P t x) (h0 : ∀ x, ¬ P [] x) (s : List Char) (x : α) :
    search m s = some x ↔ First P s x := by
  induction s with
  | nil =>
    simp only [search, reduceCtorEq, false_iff]
    rintro ⟨a, t, e, hp, _⟩
    obtain ⟨rfl, rfl⟩ := List.nil_eq_append_iff.mp e
    exact h0 x hp
  | cons c s ih =>
    unfold search
    constructor
    · intro h
      split at h
      · next y hy =>
        cases h
        exact ⟨[], c :: s, rfl, (hm _ _).mp hy, fun a' t' _ hlt => by simp at hlt⟩
      · next hn =>
        obtain ⟨a, t, e, hp, hf⟩ := ih.mp h
        refine ⟨c :: a, t, by rw [e]; rfl, hp, fun a' t' e' hlt y hy => ?_⟩
        cases a' with
        | nil =>
          simp only [List.nil_append] at e'
          subst e'
          rw [(hm _ _).mpr hy] at hn
          cases hn
        | cons d a' =>
          simp only [List.cons_append, List.cons.injEq] at e'
          exact hf a' t' e'.2 (by simpa using hlt) y hy
    · rintro ⟨a, t, e, hp, hf⟩
      cases a with
      | nil =>
        simp only [List.nil_append] at e
        subst e
        rw [(hm _ _).mpr hp]
      | cons d a =>
        simp only [List.cons_append, List.cons.injEq] at e
        obtain ⟨rfl, e⟩ := e
        have hn : m (c :: s) = none := by
          cases hq : m (c :: s) with
          | none => rfl
          | some y => exact absurd ((hm _ _).mp hq) (hf [] (c :: s) rfl (by simp) y)
        rw [hn]
        refine ih.mpr ⟨a, t, e, hp, fun a' t' e' hlt y => hf (c :: a') t' (by rw [e']; rfl) (by simpa using hlt) y⟩

theorem searchUp_nearest {α : Type} {find : List Char → Option α} {P : List Char → α → Prop} (hm : ∀ l x, find l = some x ↔ P l x) :
    ∀ ls, Nearest P ls (searchUp find ls)
  | [] => .top
  | l :: ls => by
    unfold searchUp
    split
    · next x hx => exact .here ((hm _ _).mp hx)
    · next hn => exact .above (fun x hx => by rw [(hm _ _).mpr hx] at hn; cases hn) (searchUp_nearest hm ls)

theorem key_iff (k : Char) (l : List Char) (n : Nat) : searchNum ['_', k] ('_' :: l) = some n ↔ Key k l n := by
  refine search_iff (P := Reads ['_', k]) (fun t x => ?_) ?_ _ _
  · constructor
    · intro h
      obtain ⟨⟨ds, rest⟩, h1, rfl⟩ := Option.map_eq_some_iff.mp h
      obtain ⟨r, h2, h3⟩ := Option.bind_eq_some_iff.mp h1
      obtain ⟨rfl, hd⟩ := (matchNum_iff _ _ _).mp h3
      rw [(matchText_iff _ _ _).mp h2]
      exact ⟨ds, rest, by simp, hd, digVal_number _⟩
    · rintro ⟨ds, rest, rfl, hd, rfl⟩
      rw [(matchText_iff ['_', k] _ (ds ++ '_' :: rest)).mpr (by simp), Option.bind_some, (matchNum_iff _ ds rest).mpr ⟨rfl, hd⟩, Option.map_some, digVal_number]
  · rintro x ⟨ds, rest, e, _⟩
    simp at e

theorem pair_iff (key l : List Char) (_hk : key ≠ []) (p : Nat × Nat) : searchPair key l = some p ↔ First (ReadsPair key) l p := by
  refine search_iff (P := ReadsPair key) (fun t x => ?_) ?_ _ _
  · constructor
    · intro h
      obtain ⟨r, h2, h3⟩ := Option.bind_eq_some_iff.mp h
      obtain ⟨ds, es, rest, rfl, d1, d2, e⟩ := (matchPair_iff _ _).mp h3
      rw [(matchText_iff _ _ _).mp h2]
      exact ⟨ds, es, rest, by simp, d1, d2, e⟩
    · rintro ⟨ds, es, rest, rfl, d1, d2, rfl⟩
      rw [(matchText_iff key _ (ds ++ '_' :: es ++ '_' :: rest)).mpr (by simp), Option.bind_some]
      exact (matchPair_iff _ _).mpr ⟨ds, es, rest, by simp, d1, d2, rfl⟩
  · rintro x ⟨ds, es, rest, e, _⟩
    simp at e

/-- the value of a decimal text -/
def decOf (r : List Char × List Char) : ℚ := number r.1 + number r.2 / 10 ^ r.2.length

theorem search_map {α β : Type} (f : α → β) (m : List Char → Option α) : ∀ s, (search m s).map f = search (fun t => (m t).map f) s
  | [] => rfl
  | c :: s => by
    unfold search
    cases m (c :: s) with
    | none => exact search_map f m s
    | some x => rfl

theorem searchUp_map {α β : Type} (f : α → β) (m : List Char → Option α) : ∀ s, (searchUp m s).map f = searchUp (fun t => (m t).map f) s
  | [] => rfl
  | c :: s => by
    unfold searchUp
    cases m c with
    | none => exact searchUp_map f m s
    | some x => rfl

theorem dec_iff (l : List Char) (q : ℚ) : (searchDec ['_', 'd'] l).map decOf = some q ↔ First ReadsDec l q := by
  unfold searchDec
  rw [search_map]
  refine search_iff (P := ReadsDec) (fun t x => ?_) ?_ _ _
  · constructor
    · intro h
      obtain ⟨⟨ds, es⟩, h1, rfl⟩ := Option.map_eq_some_iff.mp h
      obtain ⟨r, h2, h3⟩ := Option.bind_eq_some_iff.mp h1
      obtain ⟨rest, rfl, d1, d2⟩ := (matchDec_iff _ _ _).mp h3
      rw [(matchText_iff _ _ _).mp h2]
      exact ⟨ds, es, rest, by simp, d1, d2, rfl⟩
    · rintro ⟨ds, es, rest, rfl, d1, d2, rfl⟩
      rw [(matchText_iff ['_', 'd'] _ (ds ++ '.' :: es ++ '_' :: rest)).mpr (by simp), Option.bind_some, (matchDec_iff _ ds es).mpr ⟨rest, rfl, d1, d2⟩, Option.map_some]
      rfl
  · rintro x ⟨ds, es, rest, e, _⟩
    simp at e

theorem marked_iff {key up label : List Char} (hk : key ≠ []) (ps : List (List Char)) : Marked key label (up :: ps) (searchTwo key up label) := by
  have h : searchTwo key up label = searchUp (searchPair key) [up, label] := by
    unfold searchTwo searchUp searchUp searchUp
    cases searchPair key up with
    | some p => rfl
    | none =>
      cases searchPair key label <;> rfl
  unfold Marked
  rw [h]
  exact searchUp_nearest (fun l x => pair_iff key l hk x) _

theorem first_unique {α : Type} {P : List Char → α → Prop} (hP : ∀ t x y, P t x → P t y → x = y) {s : List Char} {x y : α} (h1 : First P s x) (h2 : First P s y) : x = y := by
  obtain ⟨a, t, e, hp, hf⟩ := h1
  obtain ⟨a', t', e', hp', hf'⟩ := h2
  have hl : a.length = a'.length := by
    rcases Nat.lt_trichotomy a.length a'.length with h | h | h
    · exact absurd hp (hf' a t e h x)
    · exact h
    · exact absurd hp' (hf a' t' e' h y)
  have : t = t' := (List.append_inj (e.symm.trans e') hl).2
  subst this
  exact hP _ _ _ hp hp'

theorem nearest_unique {α : Type} {P : List Char → α → Prop} (hP : ∀ t x y, P t x → P t y → x = y) {ls : List (List Char)} {r r' : Option α}
    (h : Nearest P ls r) (h' : Nearest P ls r') : r = r' := by
  induction h with
  | top => cases h'; rfl
  | here hx =>
    cases h' with
    | here hy => rw [hP _ _ _ hx hy]
    | above hn _ => exact absurd hx (hn _)
  | above hn _ ih =>
    cases h' with
    | here hy => exact absurd hy (hn _)
    | above _ h2 => exact ih h2

theorem marked_unique {key : List Char} (hk : key ≠ []) {label : List Char} {ps : List (List Char)} {r r' : Option (Nat × Nat)} (h : Marked key label ps r)
    (h' : Marked key label ps r') : r = r' := by
  cases ps with
  | nil =>
    simp only [Marked] at h h'
    rw [h, h']
  | cons up ps =>
    refine nearest_unique (P := First (ReadsPair key)) (fun t x y hx hy => ?_) h h'
    rw [← pair_iff key t hk] at hx hy
    exact Option.some.inj (hx.symm.trans hy)

end Geouned.Load
