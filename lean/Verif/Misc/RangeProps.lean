import Verif.Misc.Range
import Mathlib.Data.List.Basic
import Mathlib.Data.List.Forall2
import Mathlib.Data.List.Sort
/-!
# C44: cell ranges of the reverse conversion
-/
namespace Geouned.Range

/-! ## Specification -/

/-- `t` is a decimal numeral of value `n`, possibly surrounded by blanks -/
def Numeral (cc : Chars) (t : List Char) (n : Nat) : Prop :=
  ∃ (pre ds post : List Char) (vals : List Nat), t = pre ++ ds ++ post ∧ (∀ c ∈ pre, cc.ws c = true) ∧ (∀ c ∈ post, cc.ws c = true) ∧
    ds ≠ [] ∧ ds.map cc.dec = vals.map some ∧ n = vals.foldl (fun a d => 10 * a + d) 0

/-- `f` denotes the closed interval from `m` to `n`: a numeral, or two numerals separated by a colon -/
inductive FieldRange (cc : Chars) : List Char → Nat → Nat → Prop
  | single {t n} : Numeral cc t n → FieldRange cc t n n
  | interval {a b m n} : Numeral cc a m → Numeral cc b n → m ≤ n → FieldRange cc (a ++ ':' :: b) m n

/-- the string is a comma separated list of fields, which denote the intervals `rs` -/
def WellFormed (cc : Chars) (raw : List Char) (rs : List (Nat × Nat)) : Prop :=
  ∃ fs : List (List Char), fs ≠ [] ∧ raw = List.intercalate [','] fs ∧
    List.Forall₂ (fun f (r : Nat × Nat) => FieldRange cc f r.1 r.2) fs rs

/-- the property in full -/
def C44_statement : Prop :=
  ∀ (cc : Chars), cc.Lawful → ∀ (raw : List Char),
    (∀ rs, WellFormed cc raw rs → ∃ ns, getRangeData cc (some raw) = .ok (some ns) ∧ ns.Pairwise (· < ·) ∧
      ∀ n, n ∈ ns ↔ ∃ r ∈ rs, r.1 ≤ n ∧ n ≤ r.2) ∧
    ((¬ ∃ rs, WellFormed cc raw rs) → getRangeData cc (some raw) = .ok none)

/-! ## Lemmas -/

theorem split_ne_nil (c : Char) (l : List Char) : split c l ≠ [] := by
  cases l with
  | nil => simp [split]
  | cons x xs =>
    unfold split
    split
    · simp
    · split <;> simp

theorem split_append (c : Char) (a b : List Char) (ha : c ∉ a) : split c (a ++ c :: b) = a :: split c b := by
  induction a with
  | nil => simp [split]
  | cons x xs ih =>
    simp only [List.mem_cons, not_or] at ha
    simp only [List.cons_append, split, ih ha.2]
    rw [if_neg (fun h => ha.1 h.symm)]

theorem split_of_not_mem (c : Char) (a : List Char) (ha : c ∉ a) : split c a = [a] := by
  induction a with
  | nil => simp [split]
  | cons x xs ih =>
    simp only [List.mem_cons, not_or] at ha
    simp only [split, ih ha.2]
    rw [if_neg (fun h => ha.1 h.symm)]

theorem intercalate_cons_cons (c : Char) (a b : List Char) (l : List (List Char)) :
    List.intercalate [c] (a :: b :: l) = a ++ c :: List.intercalate [c] (b :: l) := by
  simp [List.intercalate, List.intersperse]

theorem split_intercalate (c : Char) (fs : List (List Char)) (h : fs ≠ []) (hc : ∀ f ∈ fs, c ∉ f) :
    split c (List.intercalate [c] fs) = fs := by
  induction fs with
  | nil => exact absurd rfl h
  | cons a l ih =>
    cases l with
    | nil =>
      have : List.intercalate [c] [a] = a := by simp [List.intercalate, List.intersperse]
      rw [this]
      exact split_of_not_mem c a (hc a (by simp))
    | cons b l =>
      rw [intercalate_cons_cons, split_append c _ _ (hc a (by simp)), ih (by simp) fun f hf => hc f (by simp [hf])]

theorem intercalate_split (c : Char) (l : List Char) : List.intercalate [c] (split c l) = l := by
  induction l with
  | nil => simp [split, List.intercalate, List.intersperse]
  | cons x xs ih =>
    unfold split
    split
    · rename_i h
      subst h
      cases hs : split x xs with
      | nil => exact absurd hs (split_ne_nil x xs)
      | cons y ys => rw [intercalate_cons_cons, ← hs, ih]; rfl
    · split
      · rename_i hs; exact absurd hs (split_ne_nil c xs)
      · rename_i y ys hs
        rw [hs] at ih
        cases ys with
        | nil =>
          simp [List.intercalate, List.intersperse] at ih ⊢
          exact ih
        | cons z zs => rw [intercalate_cons_cons] at ih ⊢; rw [← ih]; rfl

theorem dropWhile_append {α : Type} {p : α → Bool} {a b : List α} (ha : ∀ c ∈ a, p c = true) :
    (a ++ b).dropWhile p = b.dropWhile p := by
  induction a with
  | nil => rfl
  | cons x xs ih =>
    rw [List.cons_append, List.dropWhile_cons_of_pos (ha x (by simp)), ih fun c hc => ha c (by simp [hc])]

theorem dropWhile_self {α : Type} {p : α → Bool} {b : List α} (hb : ∀ c ∈ b, p c = false) :
    b.dropWhile p = b := by
  cases b with
  | nil => rfl
  | cons x xs => rw [List.dropWhile_cons_of_neg (by simp [hb x])]

theorem dropWhile_ne {α : Type} {p : α → Bool} {b c : List α} (hne : b ≠ []) (hb : ∀ c ∈ b, p c = false) :
    (b ++ c).dropWhile p = b ++ c := by
  cases b with
  | nil => exact absurd rfl hne
  | cons x xs => rw [List.cons_append, List.dropWhile_cons_of_neg (by simp [hb x])]

theorem strip_eq (cc : Chars) {pre ds post : List Char} (h1 : ∀ c ∈ pre, cc.ws c = true)
    (h2 : ∀ c ∈ post, cc.ws c = true) (hne : ds ≠ []) (hd : ∀ c ∈ ds, cc.ws c = false) :
    strip cc (pre ++ ds ++ post) = ds := by
  unfold strip
  rw [List.append_assoc, dropWhile_append h1, dropWhile_ne hne hd, List.reverse_append,
    dropWhile_append (by simpa using h2), dropWhile_self (by simpa using hd), List.reverse_reverse]

theorem dropWhile_decomp {α : Type} (p : α → Bool) (l : List α) :
    ∃ pre, l = pre ++ l.dropWhile p ∧ ∀ c ∈ pre, p c = true := by
  refine ⟨l.takeWhile p, by simp, ?_⟩
  intro c hc
  induction l with
  | nil => simp at hc
  | cons x xs ih =>
    by_cases hx : p x = true
    · rw [List.takeWhile_cons_of_pos hx] at hc
      rcases List.mem_cons.1 hc with rfl | h
      · exact hx
      · exact ih h
    · rw [List.takeWhile_cons_of_neg hx] at hc
      simp at hc

theorem strip_decomp (cc : Chars) (t : List Char) :
    ∃ pre post, t = pre ++ strip cc t ++ post ∧ (∀ c ∈ pre, cc.ws c = true) ∧ (∀ c ∈ post, cc.ws c = true) := by
  obtain ⟨pre, h1, h2⟩ := dropWhile_decomp cc.ws t
  obtain ⟨po, h3, h4⟩ := dropWhile_decomp cc.ws (t.dropWhile cc.ws).reverse
  refine ⟨pre, po.reverse, ?_, h2, by simpa using h4⟩
  have : t.dropWhile cc.ws = strip cc t ++ po.reverse := by
    have := congrArg List.reverse h3
    simpa [strip] using this
  rw [List.append_assoc, ← this]
  exact h1

theorem decVal_map (cc : Chars) : ∀ (ds : List Char) (vals : List Nat) (acc : Nat), ds.map cc.dec = vals.map some →
    decVal cc acc ds = some (vals.foldl (fun a d => 10 * a + d) acc)
  | [], [], acc, _ => rfl
  | [], _ :: _, _, h => by simp at h
  | _ :: _, [], _, h => by simp at h
  | c :: cs, v :: vs, acc, h => by
    simp only [List.map_cons, List.cons.injEq] at h
    simp only [decVal, h.1, List.foldl_cons]
    exact decVal_map cc cs vs _ h.2

theorem decs_of_all (cc : Chars) : ∀ (ds : List Char), (∀ c ∈ ds, cc.dec c ≠ none) → ∃ vals, ds.map cc.dec = List.map some vals
  | [], _ => ⟨[], rfl⟩
  | c :: cs, h => by
    obtain ⟨vs, hv⟩ := decs_of_all cc cs fun x hx => h x (by simp [hx])
    cases hd : cc.dec c with
    | none => exact absurd hd (h c (by simp))
    | some d => exact ⟨d :: vs, by simp [hd, hv]⟩

variable {cc : Chars}

theorem dec_of_map {ds : List Char} {vals : List Nat} (h : ds.map cc.dec = vals.map some) :
    ∀ c ∈ ds, ∃ d, cc.dec c = some d := by
  intro c hc
  have : cc.dec c ∈ ds.map cc.dec := List.mem_map_of_mem hc
  rw [h] at this
  obtain ⟨d, _, e⟩ := List.mem_map.1 this
  exact ⟨d, e.symm⟩

/-- characters of a numeral are blanks or numeric -/
theorem Numeral.chars (hl : cc.Lawful) {t : List Char} {n : Nat} (h : Numeral cc t n) :
    ∀ c ∈ t, cc.ws c = true ∨ cc.num c = true := by
  obtain ⟨pre, ds, post, vals, rfl, h1, h2, _, h4, _⟩ := h
  intro c hc
  simp only [List.mem_append] at hc
  rcases hc with (hc | hc) | hc
  · exact Or.inl (h1 c hc)
  · obtain ⟨d, hd⟩ := dec_of_map h4 c hc
    exact Or.inr (hl.dec_num c d hd)
  · exact Or.inl (h2 c hc)

theorem Numeral.no_colon (hl : cc.Lawful) {t : List Char} {n : Nat} (h : Numeral cc t n) : ':' ∉ t := by
  intro hc
  have := h.chars hl _ hc
  simp [hl.colon.1, hl.colon.2] at this

theorem Numeral.no_comma (hl : cc.Lawful) {t : List Char} {n : Nat} (h : Numeral cc t n) : ',' ∉ t := by
  intro hc
  have := h.chars hl _ hc
  simp [hl.comma.1, hl.comma.2] at this

theorem Numeral.run (hl : cc.Lawful) {t : List Char} {n : Nat} (h : Numeral cc t n) :
    isnumeric cc (strip cc t) = true ∧ toInt cc t = .ok n := by
  obtain ⟨pre, ds, post, vals, rfl, h1, h2, h3, h4, rfl⟩ := h
  have hnum : ∀ c ∈ ds, cc.num c = true := by
    intro c hc
    obtain ⟨d, hd⟩ := dec_of_map h4 c hc
    exact hl.dec_num c d hd
  have hs : strip cc (pre ++ ds ++ post) = ds := strip_eq cc h1 h2 h3 fun c hc => hl.num_ws c (hnum c hc)
  refine ⟨?_, ?_⟩
  · rw [hs]
    unfold isnumeric
    have : ds.isEmpty = false := by cases ds <;> simp_all
    simp [this, List.all_eq_true]
    exact hnum
  · unfold toInt
    rw [hs, decVal_map cc ds vals 0 h4]

theorem numeral_of_isnumeric {t : List Char} (hd : ∀ c ∈ t, cc.num c = true → cc.dec c ≠ none)
    (h : isnumeric cc (strip cc t) = true) : ∃ n, Numeral cc t n := by
  obtain ⟨pre, post, e, h1, h2⟩ := strip_decomp cc t
  unfold isnumeric at h
  simp only [Bool.and_eq_true, Bool.not_eq_true', List.all_eq_true] at h
  have hsub : ∀ c ∈ strip cc t, c ∈ t := fun c hc => by rw [e]; simp [hc]
  obtain ⟨vals, hv⟩ := decs_of_all cc (strip cc t) fun c hc => hd c (hsub c hc) (h.2 c hc)
  refine ⟨_, pre, strip cc t, post, vals, e, h1, h2, ?_, hv, rfl⟩
  intro he
  rw [he] at h
  simp at h

theorem not_isnumeric_colon (hl : cc.Lawful) (a b : List Char) : isnumeric cc (strip cc (a ++ ':' :: b)) = false := by
  by_contra hcon
  have h : isnumeric cc (strip cc (a ++ ':' :: b)) = true := by simpa using hcon
  obtain ⟨pre, post, e, h1, h2⟩ := strip_decomp cc (a ++ ':' :: b)
  unfold isnumeric at h
  simp only [Bool.and_eq_true, List.all_eq_true] at h
  have hm : ':' ∈ a ++ ':' :: b := by simp
  rw [e] at hm
  simp only [List.mem_append] at hm
  rcases hm with (hm | hm) | hm
  · have := h1 _ hm; simp [hl.colon.1] at this
  · have := h.2 _ hm; simp [hl.colon.2] at this
  · have := h2 _ hm; simp [hl.colon.1] at this

theorem FieldRange.run (hl : cc.Lawful) {f : List Char} {m n : Nat} (h : FieldRange cc f m n) :
    field cc f = .ok (some (List.range' m (n + 1 - m))) := by
  cases h with
  | single h =>
    obtain ⟨h1, h2⟩ := h.run hl
    unfold field
    rw [if_pos h1, h2]
    simp [bind, Except.bind]
  | @interval a b m n ha hb hmn =>
    obtain ⟨a1, a2⟩ := ha.run hl
    obtain ⟨b1, b2⟩ := hb.run hl
    unfold field
    rw [not_isnumeric_colon hl, split_append ':' _ _ (ha.no_colon hl), split_of_not_mem ':' _ (hb.no_colon hl)]
    simp only [Bool.false_eq_true, if_false, a1, b1, Bool.and_self, if_true, a2, b2, bind, Except.bind]
    rw [if_neg (by omega)]

theorem field_cases (hl : cc.Lawful) (f : List Char) (hd : ∀ c ∈ f, cc.num c = true → cc.dec c ≠ none) :
    field cc f = .ok none ∨ ∃ m n, FieldRange cc f m n := by
  by_cases h : isnumeric cc (strip cc f) = true
  · obtain ⟨n, hn⟩ := numeral_of_isnumeric hd h
    exact Or.inr ⟨n, n, .single hn⟩
  · unfold field
    rw [if_neg h]
    split
    · rename_i a b hs
      have e : f = a ++ ':' :: b := by
        have := intercalate_split ':' f
        rw [hs, intercalate_cons_cons] at this
        simpa [List.intercalate, List.intersperse] using this.symm
      split
      · rename_i hab
        simp only [Bool.and_eq_true] at hab
        obtain ⟨m, hm⟩ := numeral_of_isnumeric (fun c hc => hd c (by rw [e]; simp [hc])) hab.1
        obtain ⟨n, hn⟩ := numeral_of_isnumeric (fun c hc => hd c (by rw [e]; simp [hc])) hab.2
        by_cases hmn : m ≤ n
        · exact Or.inr ⟨m, n, by rw [e]; exact .interval hm hn hmn⟩
        · left
          rw [(hm.run hl).2, (hn.run hl).2]
          simp [bind, Except.bind]
          omega
      · exact Or.inl rfl
    · exact Or.inl rfl

theorem FieldRange.no_comma (hl : cc.Lawful) {f : List Char} {m n : Nat} (h : FieldRange cc f m n) : ',' ∉ f := by
  cases h with
  | single h => exact h.no_comma hl
  | interval ha hb _ =>
    simp [ha.no_comma hl, hb.no_comma hl]

theorem loop_ok (hl : cc.Lawful) : ∀ {fs : List (List Char)} {rs : List (Nat × Nat)},
    List.Forall₂ (fun f (r : Nat × Nat) => FieldRange cc f r.1 r.2) fs rs → ∀ acc,
    ∃ l, loop cc fs acc = .ok (some l) ∧ ∀ n, n ∈ l ↔ n ∈ acc ∨ ∃ r ∈ rs, r.1 ≤ n ∧ n ≤ r.2 := by
  intro fs rs h
  induction h with
  | nil => intro acc; exact ⟨acc, rfl, by simp⟩
  | @cons f r fs rs hf _ ih =>
    intro acc
    obtain ⟨l, e, hm⟩ := ih (acc ++ List.range' r.1 (r.2 + 1 - r.1))
    refine ⟨l, ?_, ?_⟩
    · simp only [loop, hf.run hl, bind, Except.bind]
      exact e
    · intro n
      rw [hm]
      simp only [List.mem_append, List.mem_range'_1, List.mem_cons, exists_eq_or_imp]
      have : (r.1 ≤ n ∧ n < r.1 + (r.2 + 1 - r.1)) ↔ (r.1 ≤ n ∧ n ≤ r.2) := by omega
      rw [this, or_assoc]

theorem loop_cases (hl : cc.Lawful) : ∀ (fs : List (List Char)) (acc : List Nat),
    (∀ f ∈ fs, ∀ c ∈ f, cc.num c = true → cc.dec c ≠ none) →
    loop cc fs acc = .ok none ∨ ∃ rs : List (Nat × Nat), List.Forall₂ (fun f (r : Nat × Nat) => FieldRange cc f r.1 r.2) fs rs
  | [], _, _ => Or.inr ⟨[], .nil⟩
  | f :: fs, acc, h => by
    rcases field_cases hl f (h f (by simp)) with e | ⟨m, n, hf⟩
    · left; simp [loop, e, bind, Except.bind]
    · rcases loop_cases hl fs (acc ++ List.range' m (n + 1 - m)) fun g hg => h g (by simp [hg]) with e | ⟨rs, hrs⟩
      · left
        simp only [loop, hf.run hl, bind, Except.bind]
        exact e
      · exact Or.inr ⟨(m, n) :: rs, .cons hf hrs⟩

theorem mem_toSet (l : List Nat) (n : Nat) : n ∈ toSet l ↔ n ∈ l := by
  induction l with
  | nil => simp [toSet]
  | cons a l ih =>
    unfold toSet
    split
    · rename_i h; rw [ih]; simp; rintro rfl; exact h
    · simp [ih]

theorem nodup_toSet (l : List Nat) : (toSet l).Nodup := by
  induction l with
  | nil => simp [toSet]
  | cons a l ih =>
    unfold toSet
    split
    · exact ih
    · rename_i h; exact List.nodup_cons.2 ⟨by rwa [mem_toSet], ih⟩

/-- C44, accepted strings: for every well-formed string the result is the increasing list of exactly the numbers listed. No
condition on the characters is needed. -/
theorem C44_accept (cc : Chars) (hl : cc.Lawful) (raw : List Char) (rs : List (Nat × Nat)) (h : WellFormed cc raw rs) :
    ∃ ns, getRangeData cc (some raw) = .ok (some ns) ∧ ns.Pairwise (· < ·) ∧
      ∀ n, n ∈ ns ↔ ∃ r ∈ rs, r.1 ≤ n ∧ n ≤ r.2 := by
  obtain ⟨fs, hne, rfl, hf⟩ := h
  have hnc : ∀ f ∈ fs, ',' ∉ f := by
    intro f hfm
    obtain ⟨i, hi, rfl⟩ := List.mem_iff_getElem.1 hfm
    have h2 := hf.length_eq
    have := (List.forall₂_iff_get.1 hf).2 i hi (by omega)
    exact this.no_comma hl
  obtain ⟨l, e, hm⟩ := loop_ok hl hf []
  refine ⟨insSort (fun a b => decide (a ≤ b)) (toSet l), ?_, ?_, ?_⟩
  · simp only [getRangeData, split_intercalate ',' fs hne hnc, e, bind, Except.bind]
  · have hs := insSort_pairwise (le := fun a b : Nat => decide (a ≤ b)) (by simp; omega) (by simp; omega) (toSet l)
    have hn : (insSort (fun a b : Nat => decide (a ≤ b)) (toSet l)).Nodup :=
      (insSort_perm _ _).nodup_iff.2 (nodup_toSet l)
    refine (hs.and hn).imp ?_
    intro a b hab
    simp only [decide_eq_true_eq] at hab
    omega
  · intro n
    rw [(insSort_perm _ _).mem_iff, mem_toSet, hm]
    simp

/-- C44, rejected strings: when every numeric character of the string is a decimal digit, a string that is not well-formed gives
`None` as a whole. Missing for the full property: strings with other numeric characters, see `C44_violated`. -/
theorem C44_range_partial (cc : Chars) (hl : cc.Lawful) (raw : List Char)
    (hd : ∀ c ∈ raw, cc.num c = true → cc.dec c ≠ none) :
    (∀ rs, WellFormed cc raw rs → ∃ ns, getRangeData cc (some raw) = .ok (some ns) ∧ ns.Pairwise (· < ·) ∧
      ∀ n, n ∈ ns ↔ ∃ r ∈ rs, r.1 ≤ n ∧ n ≤ r.2) ∧
    ((¬ ∃ rs, WellFormed cc raw rs) → getRangeData cc (some raw) = .ok none) := by
  refine ⟨fun rs h => C44_accept cc hl raw rs h, fun hno => ?_⟩
  have hsub : ∀ f ∈ split ',' raw, ∀ c ∈ f, c ∈ raw := by
    intro f hf c hc
    have := intercalate_split ',' raw
    rw [← this]
    simp only [List.intercalate, List.mem_flatten]
    refine ⟨f, ?_, hc⟩
    have key : ∀ (l : List (List Char)) (s f : List Char), f ∈ l → f ∈ l.intersperse s := by
      intro l s f
      induction l with
      | nil => simp
      | cons a l ih =>
        cases l with
        | nil => simp
        | cons b l =>
          rw [List.intersperse_cons_cons]
          intro h
          rcases List.mem_cons.1 h with rfl | h
          · simp
          · simp [ih h]
    exact key _ _ _ hf
  rcases loop_cases hl (split ',' raw) [] fun f hf c hc => hd c (hsub f hf c hc) with e | ⟨rs, hrs⟩
  · simp [getRangeData, e, bind, Except.bind]
  · exact absurd ⟨rs, split ',' raw, split_ne_nil _ _, (intercalate_split _ _).symm, hrs⟩ hno

/-- character classes of Python restricted to ASCII and the superscript two (`'²'.isnumeric()` is True, `int('²')` raises) -/
def sample : Chars where
  ws c := c == ' ' || c == '\t' || c == '\n'
  num c := c.isDigit || c == '²'
  dec c := if c.isDigit then some (c.toNat - 48) else none

theorem sample_lawful : sample.Lawful where
  num_ws c h := by
    simp only [sample, Bool.or_eq_true, beq_iff_eq] at h
    simp only [sample, Bool.or_eq_false_iff, beq_eq_false_iff_ne]
    refine ⟨⟨?_, ?_⟩, ?_⟩ <;> (rintro rfl; revert h; decide)
  dec_num c d h := by
    simp only [sample] at h ⊢
    split at h
    · rename_i hc; simp [hc]
    · cases h
  comma := by decide
  colon := by decide

/-- The full property is false: `²` is not a range but it is not rejected either, `int` raises. -/
theorem C44_violated : ¬ C44_statement := by
  intro h
  have h2 := (h sample sample_lawful ['²']).2 ?_
  · have : getRangeData sample (some ['²']) = .error .valueError := rfl
    rw [this] at h2
    cases h2
  · rintro ⟨rs, hw⟩
    obtain ⟨ns, h1, _⟩ := C44_accept sample sample_lawful _ rs hw
    have : getRangeData sample (some ['²']) = .error .valueError := rfl
    rw [this] at h1
    cases h1

/-- non-vacuity: `3, 5:7,6` is well-formed and gives 3,5,6,7; `5:3` is rejected -/
example : WellFormed sample "3, 5:7,6".toList [(3, 3), (5, 7), (6, 6)] ∧
    getRangeData sample (some "3, 5:7,6".toList) = .ok (some [3, 5, 6, 7]) ∧
    getRangeData sample (some "5:3".toList) = .ok none := by
  refine ⟨⟨["3".toList, " 5:7".toList, "6".toList], by decide, by decide, ?_⟩, by decide, by decide⟩
  have n3 : Numeral sample "3".toList 3 := ⟨[], ['3'], [], [3], by decide, by decide, by decide, by decide, by decide, by decide⟩
  have n5 : Numeral sample " 5".toList 5 := ⟨[' '], ['5'], [], [5], by decide, by decide, by decide, by decide, by decide, by decide⟩
  have n7 : Numeral sample "7".toList 7 := ⟨[], ['7'], [], [7], by decide, by decide, by decide, by decide, by decide, by decide⟩
  have n6 : Numeral sample "6".toList 6 := ⟨[], ['6'], [], [6], by decide, by decide, by decide, by decide, by decide, by decide⟩
  exact .cons (.single n3) (.cons (.interval n5 n7 (by decide)) (.cons (.single n6) .nil))

end Geouned.Range
