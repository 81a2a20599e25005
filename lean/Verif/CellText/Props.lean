import Verif.CellText.Lemmas5
/-!
# C80: a cell card is read as it is written
-/
namespace Geouned.CellText

variable {V : Type}

/-- what is read agrees with what is written -/
structure Agrees (F : Arith V) (c : Written) (n : Int) (r : CellCard V) : Prop where
  key : n = value c.name
  name : r.name = value c.name
  mat : r.mat = c.material
  like : r.likeCell = c.like
  geom : ∀ g, c.geometry = some g → r.geom = g
  u : r.u = c.universe.map (fun n => (n : Int))
  fill : r.fill = c.fill.map (fun n => (n : Int))
  tr : c.SaysTr F r.tr
  trcl : c.SaysTrcl F r.trcl
  /-- complement operators are replaced only in cards that are no `LIKE` cards and have no `TRCL` -/
  hproc : r.hproc = true ↔ ¬ c.head.isLike ∧ c.trclParam = none

/-- the property in full: every card is read as it is written -/
def C80_statement : Prop :=
  ∀ (V : Type) (F : Arith V) (c : Written), (∀ t, Number False t → ∃ v, F.flt t = some v) → c.Ok False →
    ∃ n r, readCell F c.text = .ok (n, r) ∧ Agrees F c n r

/-- the cards for which it is proved -/
structure Usual (c : Written) : Prop where
  /-- name and material are on the same line -/
  gap : Blanks c.gap
  /-- every parameter is given with an equals sign, followed by blanks only in the case of `MAT` -/
  eqs : ∀ p ∈ c.params, ∃ a b, p.eq = a ++ '=' :: b ∧ Blanks a ∧ Gap b ∧ (p.kind = .mat → Blanks b)
  /-- no other key ends with `u`, `fill` or `mat`, begins with `c`, or contains `k` or `r` -/
  keys : ∀ p ∈ c.params, p.kind = .other → ¬ Ends ['u'] p ∧ ¬ Ends ['f', 'i', 'l', 'l'] p ∧ ¬ Ends ['m', 'a', 't'] p ∧
    (∀ x, p.key.head? = some x → x ≠ 'c' ∧ x ≠ 'C') ∧ ∀ x ∈ p.key, x.toLower ≠ 'k' ∧ x.toLower ≠ 'r'
  /-- the universe is not negative -/
  uni : ∀ p ∈ c.params, ∀ t, p.val = .uni t → '-' ∉ t
  /-- if `FILL` has no transformation, no parenthesis comes after it -/
  paren : ∀ l p r, c.params = l ++ p :: r → ∀ t, p.val = .fill t none → ∀ q ∈ r, '(' ∉ q.val.text
  /-- `like` in small letters, followed by a blank -/
  like : ∀ w g1 n g2 b g3, c.head = .like w g1 n g2 b g3 → w = ['l', 'i', 'k', 'e'] ∧ g1.head? = some ' '

theorem usual_nice {c : Written} (h : c.Ok True) (hu : Usual c) : NiceAll c.params := by
  refine ⟨fun p hp => ⟨h.params.val p hp, ?_, h.params.gap p hp⟩, h.params.apart⟩
  obtain ⟨a, b, h1, h2, h3, _⟩ := hu.eqs p hp
  exact ⟨a, b, h1, h2, h3⟩

/-- the key of a parameter that is not `other` -/
theorem kind_key {P : Prop} {p : Param} (h : p.ValOk P) :
    (p.kind = .uni → low p.key = ['u']) ∧ (p.kind = .fill → low p.key = ['f', 'i', 'l', 'l']) ∧ (p.kind = .trcl → low p.key = ['t', 'r', 'c', 'l']) ∧
      (p.kind = .mat → low p.key = ['m', 'a', 't']) := by
  unfold Param.ValOk at h
  unfold Param.kind
  cases hv : p.val with
  | uni t => rw [hv] at h; simp; exact h.1
  | fill t tr => rw [hv] at h; simp; exact h.1
  | trcl tr =>
    rw [hv] at h
    cases tr with
    | number t => simp; exact h.1
    | entries g w => simp; exact h.1
  | mat t => rw [hv] at h; simp; exact h.1
  | other w => simp

theorem ends_suffix {word w2 : List Char} {p : Param} (h : Ends word p) (hk : low p.key = w2) : word <:+ w2 := by
  obtain ⟨a, v, h1, h2⟩ := h
  refine ⟨low a, ?_⟩
  rw [← hk, h1, ← h2]
  simp [low]

theorem kinds (k : Kind) : k = .uni ∨ k = .fill ∨ k = .trcl ∨ k = .mat ∨ k = .other := by cases k <;> simp

theorem ends_kind {c : Written} (h : c.Ok True) (hu : Usual c) {p : Param} (hp : p ∈ c.params) :
    (Ends ['u'] p → p.kind = .uni) ∧ (Ends ['f', 'i', 'l', 'l'] p → p.kind = .fill) ∧ (Ends ['t', 'r', 'c', 'l'] p → p.kind = .trcl) ∧ (Ends ['m', 'a', 't'] p → p.kind = .mat) := by
  obtain ⟨h1, h2, h3, h4⟩ := kind_key (h.params.val p hp)
  have hr : Ends ['t', 'r', 'c', 'l'] p → p.kind = .other → False := by
    intro he ho
    obtain ⟨a, v, h5, h6⟩ := he
    have : 'r' ∈ low v := by rw [h6]; simp
    obtain ⟨x, hx, hx2⟩ := List.mem_map.mp this
    exact ((hu.keys p hp ho).2.2.2.2 x (by rw [h5]; exact List.mem_append_right _ hx)).2 hx2
  refine ⟨fun he => ?_, fun he => ?_, fun he => ?_, fun he => ?_⟩ <;> rcases kinds p.kind with k | k | k | k | k
  all_goals first
    | exact k
    | exact absurd (ends_suffix he (h1 k)) (by decide)
    | exact absurd (ends_suffix he (h2 k)) (by decide)
    | exact absurd (ends_suffix he (h3 k)) (by decide)
    | exact absurd (ends_suffix he (h4 k)) (by decide)
    | exact absurd he (hu.keys p hp k).1
    | exact absurd he (hu.keys p hp k).2.1
    | exact absurd he (hu.keys p hp k).2.2.1
    | exact (hr he k).elim

theorem digits_sign {t : List Char} {s d : List Char} (h : t = s ++ d) (hs : Sign s) (hd : Digits d) : t.filter Char.isDigit = d := by
  have : d.filter Char.isDigit = d := List.filter_eq_self.mpr (by simpa using hd.2)
  rw [h, List.filter_append, this]
  rcases hs with rfl | rfl | rfl <;> rfl

/-- U -/
theorem read_u {c : Written} (h : c.Ok True) (hu : Usual c) {g : List Char} (hg : Gap g) :
    getU (g ++ paramsText c.params) = .ok (c.universe.map (fun n => (n : Int))) := by
  have hn := usual_nice h hu
  cases hc : c.universe with
  | none =>
    rw [Written.universe, List.findSome?_eq_none_iff] at hc
    refine getU_none hg hn (fun p hp he => ?_)
    have hk := (ends_kind h hu hp).1 he
    have := hc p hp
    unfold Param.kind at hk
    cases hv : p.val <;> rw [hv] at hk this <;> simp at hk this
  | some n =>
    rw [Written.universe, List.findSome?_eq_some_iff] at hc
    obtain ⟨l, p, r, hl, hp, hq⟩ := hc
    have hpm : p ∈ c.params := by rw [hl]; simp
    have hval := h.params.val p hpm
    have hno : ∀ q ∈ l, ¬ Ends ['u'] q := by
      intro q hql he
      have hk := (ends_kind h hu (p := q) (by rw [hl]; simp [hql])).1 he
      have := hq q hql
      unfold Param.kind at hk
      cases hv : q.val <;> rw [hv] at hk this <;> simp at hk this
    unfold Param.ValOk at hval
    cases hv : p.val with
    | uni t =>
      rw [hv] at hval hp
      obtain ⟨_, _, s, d, ht, hs, hd⟩ := hval
      simp only [Option.some.injEq] at hp
      rw [digits_sign ht hs hd] at hp
      have hm : s ≠ ['-'] := by
        intro h0
        exact hu.uni p hpm t hv (by rw [ht, h0]; simp)
      rw [hl] at hn ⊢
      rw [getU_some hg hn hno (by rw [hv, ht]) hs hd hm, hp]
      rfl
    | fill t tr => rw [hv] at hp; simp at hp
    | trcl tr => rw [hv] at hp; simp at hp
    | mat t => rw [hv] at hp; simp at hp
    | other w => rw [hv] at hp; simp at hp

/-- TRCL -/
theorem read_trcl {F : Arith V} (hF : ∀ t, Number False t → ∃ v, F.flt t = some v) {c : Written} (h : c.Ok True) (hu : Usual c) {g : List Char} (hg : Gap g) :
    ∃ x, getTrcl F (g ++ paramsText c.params) = .ok x ∧ c.SaysTrcl F x := by
  have hn := usual_nice h hu
  unfold Written.SaysTrcl
  cases hc : c.trclParam with
  | none =>
    rw [Written.trclParam, List.findSome?_eq_none_iff] at hc
    refine ⟨none, getTrcl_none F hg hn (fun p hp he => ?_), rfl⟩
    have hk := (ends_kind h hu hp).2.2.1 he
    have := hc p hp
    unfold Param.kind at hk
    cases hv : p.val <;> rw [hv] at hk this <;> simp at hk this
  | some y =>
    rw [Written.trclParam, List.findSome?_eq_some_iff] at hc
    obtain ⟨l, p, r, hl, hp, hq⟩ := hc
    have hno : ∀ q ∈ l, ¬ Ends ['t', 'r', 'c', 'l'] q := by
      intro q hql he
      have hk := (ends_kind h hu (p := q) (by rw [hl]; simp [hql])).2.2.1 he
      have := hq q hql
      unfold Param.kind at hk
      cases hv : q.val <;> rw [hv] at hk this <;> simp at hk this
    rw [hl] at hn ⊢
    cases hv : p.val with
    | trcl tr =>
      rw [hv] at hp
      simp only [Option.some.injEq] at hp
      subst hp
      cases tr with
      | number t => exact ⟨_, getTrcl_number F hg hn hno hv, rfl⟩
      | entries o w =>
        obtain ⟨v, h1, h2⟩ := getTrcl_entries F hF hg hn hno hv
        exact ⟨_, h1, v, h2, rfl⟩
    | uni t => rw [hv] at hp; simp at hp
    | fill t tr => rw [hv] at hp; simp at hp
    | mat t => rw [hv] at hp; simp at hp
    | other w => rw [hv] at hp; simp at hp

/-- FILL and its transformation -/
theorem read_fill {F : Arith V} (hF : ∀ t, Number False t → ∃ v, F.flt t = some v) {c : Written} (h : c.Ok True) (hu : Usual c) {g : List Char} (hg : Gap g) :
    ∃ x, getFill F (g ++ paramsText c.params) = .ok (c.fill.map (fun n => (n : Int)), x) ∧ c.SaysTr F x := by
  have hn := usual_nice h hu
  unfold Written.SaysTr
  cases hc : c.trParam with
  | none =>
    have hf : c.fill = none := by
      rw [Written.fill, List.findSome?_eq_none_iff]
      rw [Written.trParam, List.findSome?_eq_none_iff] at hc
      intro p hp
      have := hc p hp
      cases hv : p.val <;> rw [hv] at this <;> simp at this ⊢
    rw [Written.trParam, List.findSome?_eq_none_iff] at hc
    refine ⟨none, ?_, rfl⟩
    rw [hf, getFill_none F hg hn (fun p hp he => ?_)]
    · rfl
    · have hk := (ends_kind h hu hp).2.1 he
      have := hc p hp
      unfold Param.kind at hk
      cases hv : p.val <;> rw [hv] at hk this <;> simp at hk this
  | some y =>
    rw [Written.trParam, List.findSome?_eq_some_iff] at hc
    obtain ⟨l, p, r, hl, hp, hq⟩ := hc
    have hno : ∀ q ∈ l, ¬ Ends ['f', 'i', 'l', 'l'] q := by
      intro q hql he
      have hk := (ends_kind h hu (p := q) (by rw [hl]; simp [hql])).2.1 he
      have := hq q hql
      unfold Param.kind at hk
      cases hv : q.val <;> rw [hv] at hk this <;> simp at hk this
    cases hv : p.val with
    | fill t tr =>
      rw [hv] at hp
      simp only [Option.some.injEq] at hp
      subst hp
      have hf : c.fill = some (value t) := by
        rw [Written.fill, List.findSome?_eq_some_iff]
        refine ⟨l, p, r, hl, by rw [hv], fun q hql => ?_⟩
        have := hq q hql
        cases hv : q.val <;> rw [hv] at this <;> simp at this ⊢
      rw [hf]
      cases tr with
      | none =>
        have hpar := hu.paren l p r hl t hv
        rw [hl] at hn ⊢
        exact ⟨none, getFill_plain F hg hn hno hv hpar, rfl⟩
      | some x =>
        obtain ⟨s, o, w⟩ := x
        rw [hl] at hn ⊢
        obtain ⟨v, h1, h2⟩ := getFill_tr F hF hg hn hno hv
        refine ⟨some v, h1, ?_⟩
        dsimp only
        by_cases hw : w.length = 1
        · rw [if_pos hw] at h2 ⊢
          intro x hx
          rw [h2 x hx]
        · rw [if_neg hw] at h2 ⊢
          obtain ⟨k, h3, h4⟩ := h2
          exact ⟨k, h4, by rw [h3]⟩
    | uni t => rw [hv] at hp; simp at hp
    | trcl tr => rw [hv] at hp; simp at hp
    | mat t => rw [hv] at hp; simp at hp
    | other w => rw [hv] at hp; simp at hp

/-- MAT -/
theorem read_mat {c : Written} (h : c.Ok True) (hu : Usual c) {g : List Char} (hg : Gap g) :
    (searchMat (g ++ paramsText c.params)).map value = c.params.findSome? Param.mat? := by
  have hn := usual_nice h hu
  cases hc : c.params.findSome? Param.mat? with
  | none =>
    rw [List.findSome?_eq_none_iff] at hc
    rw [searchMat_none, Option.map_none]
    rw [gap_skip word_mat hg hn, keys_none word_mat hn (fun p hp he => ?_)]
    · rfl
    · have hk := (ends_kind h hu hp).2.2.2 he
      have := hc p hp
      unfold Param.mat? at this
      unfold Param.kind at hk
      cases hv : p.val <;> rw [hv] at hk this <;> simp at hk this
  | some y =>
    rw [List.findSome?_eq_some_iff] at hc
    obtain ⟨l, p, r, hl, hp, hq⟩ := hc
    have hpm : p ∈ c.params := by rw [hl]; simp
    have hno : ∀ q ∈ l, ¬ Ends ['m', 'a', 't'] q := by
      intro q hql he
      have hk := (ends_kind h hu (p := q) (by rw [hl]; simp [hql])).2.2.2 he
      have := hq q hql
      unfold Param.mat? at this
      unfold Param.kind at hk
      cases hv : q.val <;> rw [hv] at hk this <;> simp at hk this
    unfold Param.mat? at hp
    cases hv : p.val with
    | mat t =>
      rw [hv] at hp
      simp only [Option.some.injEq] at hp
      subst hp
      have hval := h.params.val p hpm
      unfold Param.ValOk at hval
      rw [hv] at hval
      obtain ⟨hk, _, hd⟩ := hval
      obtain ⟨a, b, h1, h2, h3, h4⟩ := hu.eqs p hpm
      have hb := h4 (by unfold Param.kind; rw [hv])
      rw [hl] at hn ⊢
      have hsep := sep_params (niceAll_right hn)
      have e : (p.tail b ++ paramsText r).dropWhile (fun x => decide (x = ' ')) = t ++ (p.gap ++ paramsText r) := by
        have e1 : p.tail b ++ paramsText r = b ++ (t ++ (p.gap ++ paramsText r)) := by
          unfold Param.tail
          rw [hv]
          simp [PVal.text]
        rw [e1]
        exact (dropBlanks hb (digits_head hd _)).1
      have hs : searchKey ['m', 'a', 't'] (g ++ paramsText (l ++ p :: r)) = some (g ++ (paramsText l ++ p.starText), t ++ (p.gap ++ paramsText r)) := by
        rw [gap_skip word_mat hg hn, keys_found word_mat hn hno h1 h2 hk, e]
        rfl
      obtain ⟨h5, _⟩ := takeWhile_digits (r := p.gap ++ paramsText r) hd.2 (fun c hc => (sep_stop hsep c hc).1)
      rw [searchMat_some hs (by rw [h5]; exact hd.1), h5]
      rfl
    | uni t => rw [hv] at hp; simp at hp
    | fill t tr => rw [hv] at hp; simp at hp
    | trcl tr => rw [hv] at hp; simp at hp
    | other w => rw [hv] at hp; simp at hp

/-- the letters `k` and `r` -/
theorem without_append {x : Char} {a b : List Char} (ha : Without x a) (hb : Without x b) : Without x (a ++ b) := by
  intro c hc
  rcases List.mem_append.mp hc with hc | hc
  · exact ha c hc
  · exact hb c hc

theorem without_val {s : List Char} (h : ∀ c ∈ s, ValChar c) : Without 'k' s ∧ Without 'r' s :=
  ⟨fun c hc => (valChar_not (h c hc)).1, fun c hc => (valChar_not (h c hc)).2⟩

theorem without_param {c : Written} (h : c.Ok True) (hu : Usual c) {p : Param} (hp : p ∈ c.params) : Without 'k' p.text ∧ (p.kind ≠ .trcl → Without 'r' p.text) := by
  obtain ⟨a, b, h1, h2, h3⟩ := (usual_nice h hu).nice p hp |>.eq
  have hv := without_val (val_chars (h.params.val p hp))
  have hg := without_val (gap_val (h.params.gap p hp))
  have hb := without_val (gap_val h3)
  have ha := without_val (gap_val (blanks_gap h2))
  have hs : Without 'k' p.starText ∧ Without 'r' p.starText := by
    unfold Param.starText Without
    split <;> decide
  have heq : ∀ x s, x ≠ '=' → Without x s → Without x ('=' :: s) := by
    intro x s hx hs c hc
    rcases List.mem_cons.mp hc with rfl | hc
    · intro h0
      exact hx (h0.symm.trans (by decide))
    · exact hs c hc
  obtain ⟨k1, k2, k3, k4⟩ := kind_key (h.params.val p hp)
  have hlow : ∀ (x : Char) (w : List Char), low p.key = w → x ∉ w → Without x p.key := by
    intro x w hw hx c hc h0
    exact hx (by rw [← hw, ← h0]; exact List.mem_map.mpr ⟨c, hc, rfl⟩)
  have hk : Without 'k' p.key ∧ (p.kind ≠ .trcl → Without 'r' p.key) := by
    rcases kinds p.kind with k | k | k | k | k
    · exact ⟨hlow _ _ (k1 k) (by decide), fun _ => hlow _ _ (k1 k) (by decide)⟩
    · exact ⟨hlow _ _ (k2 k) (by decide), fun _ => hlow _ _ (k2 k) (by decide)⟩
    · exact ⟨hlow _ _ (k3 k) (by decide), fun h0 => absurd k h0⟩
    · exact ⟨hlow _ _ (k4 k) (by decide), fun _ => hlow _ _ (k4 k) (by decide)⟩
    · have := (hu.keys p hp k).2.2.2.2
      exact ⟨fun c hc => (this c hc).1, fun _ c hc => (this c hc).2⟩
  rw [Param.text_eq h1]
  unfold Param.tail
  refine ⟨?_, fun h0 => ?_⟩
  · exact without_append hs.1 (without_append hk.1 (without_append ha.1 (heq _ _ (by decide) (without_append hb.1 (without_append hv.1 hg.1)))))
  · exact without_append hs.2 (without_append (hk.2 h0) (without_append ha.2 (heq _ _ (by decide) (without_append hb.2 (without_append hv.2 hg.2)))))

theorem without_params {c : Written} (h : c.Ok True) (hu : Usual c) : Without 'k' (paramsText c.params) ∧ (c.trclParam = none → Without 'r' (paramsText c.params)) := by
  refine ⟨?_, ?_⟩
  · intro x hx
    obtain ⟨p, hp, hx⟩ := List.mem_flatMap.mp hx
    exact (without_param h hu hp).1 x hx
  · intro h0 x hx
    obtain ⟨p, hp, hx⟩ := List.mem_flatMap.mp hx
    refine (without_param h hu hp).2 ?_ x hx
    rw [Written.trclParam, List.findSome?_eq_none_iff] at h0
    have := h0 p hp
    unfold Param.kind
    cases hv : p.val <;> rw [hv] at this <;> simp at this ⊢

theorem trcl_in {c : Written} (h : c.Ok True) (hu : Usual c) : hasTrcl (paramsText c.params) = true ↔ c.trclParam ≠ none := by
  constructor
  · intro h1 h2
    rw [hasTrcl_false ((without_params h hu).2 h2)] at h1
    cases h1
  · intro h1
    cases h2 : c.trclParam with
    | none => exact absurd h2 h1
    | some y =>
      rw [Written.trclParam, List.findSome?_eq_some_iff] at h2
      obtain ⟨l, p, r, hl, hp, _⟩ := h2
      have hpm : p ∈ c.params := by rw [hl]; simp
      have hk : low p.key = ['t', 'r', 'c', 'l'] := (kind_key (h.params.val p hpm)).2.2.1 (by
        unfold Param.kind
        cases hv : p.val <;> rw [hv] at hp <;> simp at hp ⊢)
      obtain ⟨a, b, h3, _⟩ := (usual_nice h hu).nice p hpm |>.eq
      have e : paramsText c.params = (paramsText l ++ p.starText) ++ (p.key ++ ((a ++ '=' :: p.tail b) ++ paramsText r)) := by
        rw [hl, paramsText_append, paramsText_cons, Param.text_eq h3]
        simp
      rw [e]
      exact hasTrcl_true _ _ hk

theorem key_alpha {P : Prop} {p : Param} (h : p.ValOk P) : ∃ x r, p.key = x :: r ∧ x.isAlpha = true := by
  have hs : ∀ word : List Char, (∀ c : Char, c.toLower ∈ word → c.isAlpha = true) → low p.key = word → word ≠ [] → ∃ x r, p.key = x :: r ∧ x.isAlpha = true := by
    intro word hw hk hne
    cases hkey : p.key with
    | nil => rw [hkey] at hk; exact absurd hk.symm hne
    | cons x r =>
      refine ⟨x, r, rfl, hw x ?_⟩
      rw [← hk, hkey]
      simp [low]
  have hal : ∀ c : Char, c.toLower.isAlpha = true → c.isAlpha = true := by
    intro c hc
    unfold Char.toLower at hc
    split at hc
    · next hu =>
      unfold Char.isAlpha
      rw [Bool.or_eq_true]
      left
      exact decide_eq_true hu
    · exact hc
  obtain ⟨k1, k2, k3, k4⟩ := kind_key h
  rcases kinds p.kind with k | k | k | k | k
  · exact hs _ (fun c hc => hal c (by simp only [List.mem_cons, List.not_mem_nil, or_false] at hc; rw [hc]; decide)) (k1 k) (by decide)
  · exact hs _ (fun c hc => hal c (by simp only [List.mem_cons, List.not_mem_nil, or_false] at hc; rcases hc with h | h | h | h <;> rw [h] <;> decide)) (k2 k) (by decide)
  · exact hs _ (fun c hc => hal c (by simp only [List.mem_cons, List.not_mem_nil, or_false] at hc; rcases hc with h | h | h | h <;> rw [h] <;> decide)) (k3 k) (by decide)
  · exact hs _ (fun c hc => hal c (by simp only [List.mem_cons, List.not_mem_nil, or_false] at hc; rcases hc with h | h | h <;> rw [h] <;> decide)) (k4 k) (by decide)
  · unfold Param.ValOk at h
    unfold Param.kind at k
    cases hv : p.val <;> rw [hv] at h k <;> simp at k
    exact h.2.2.1

theorem startL_params {c : Written} (h : c.Ok True) (hu : Usual c) : StartL (paramsText c.params) := by
  cases hp : c.params with
  | nil => intro x hx; cases hx
  | cons p ps =>
    obtain ⟨x, r, hk, hx⟩ := key_alpha (h.params.val p (by rw [hp]; simp))
    intro y hy
    rw [paramsText_cons] at hy
    unfold Param.text at hy
    rw [hk] at hy
    cases hs : p.star with
    | true =>
      rw [hs] at hy
      exact Or.inl (Option.some.inj hy).symm
    | false =>
      rw [hs] at hy
      have : x = y := Option.some.inj hy
      rw [← this]
      exact Or.inr hx

theorem keys_c {c : Written} (h : c.Ok True) (hu : Usual c) : ∀ p ∈ c.params, ∀ x, p.key.head? = some x → x ≠ 'c' ∧ x ≠ 'C' := by
  intro p hp x hx
  obtain ⟨k1, k2, k3, k4⟩ := kind_key (h.params.val p hp)
  have hs : ∀ y w, low p.key = y :: w → y ≠ 'c' → x ≠ 'c' ∧ x ≠ 'C' := by
    intro y w hk hy
    cases hkey : p.key with
    | nil => rw [hkey] at hx; cases hx
    | cons z r =>
      rw [hkey] at hk hx
      cases Option.some.inj hx
      have : x.toLower = y := (List.cons.inj hk).1
      refine ⟨?_, ?_⟩ <;> (rintro rfl; exact hy (this.symm.trans (by decide)))
  rcases kinds p.kind with k | k | k | k | k
  · exact hs _ _ (k1 k) (by decide)
  · exact hs _ _ (k2 k) (by decide)
  · exact hs _ _ (k3 k) (by decide)
  · exact hs _ _ (k4 k) (by decide)
  · exact (hu.keys p hp k).2.2.2.1 x hx

theorem geometry_chars {g : List Char} (h : Geometry g) : Without 'k' g := by
  induction h with
  | nil => intro c hc; cases hc
  | char c g hc _ ih =>
    intro x hx
    rcases List.mem_cons.mp hx with rfl | hx
    · rcases hc with hc | hc
      · simp only [List.mem_cons, List.not_mem_nil, or_false] at hc
        rcases hc with rfl | rfl | rfl | rfl | rfl | rfl | rfl | rfl <;> decide
      · exact (digit_not hc).1
    · exact ih x hx
  | line g _ ih =>
    intro x hx
    simp only [List.mem_cons] at hx
    rcases hx with rfl | rfl | rfl | rfl | rfl | rfl | hx
    all_goals first | exact ih x hx | decide

theorem geometry_noeq {g : List Char} (h : Geometry g) : '=' ∉ g := by
  induction h with
  | nil => simp
  | char c g hc _ ih =>
    intro hy
    rcases List.mem_cons.mp hy with h0 | h0
    · rw [← h0] at hc; revert hc; decide
    · exact ih h0
  | line g _ ih =>
    intro hy
    simp only [List.mem_cons] at hy
    rcases hy with h0 | h0 | h0 | h0 | h0 | h0 | h0
    all_goals first | exact ih h0 | exact absurd h0 (by decide)

/-- the part of a card after the head, when it is no `LIKE` card -/
theorem read_rest {F : Arith V} (hF : ∀ t, Number False t → ∃ v, F.flt t = some v) {c : Written} (h : c.Ok True) (hu : Usual c) {g : List Char} (hg : Geometry g) :
    ∃ tr trcl, splitCard (g ++ paramsText c.params) = (g, paramsText c.params, decide (c.trclParam = none)) ∧
      getTrcl F (paramsText c.params) = .ok trcl ∧ c.SaysTrcl F trcl ∧ getU (paramsText c.params) = .ok (c.universe.map (fun n => (n : Int))) ∧
      getFill F (paramsText c.params) = .ok (c.fill.map (fun n => (n : Int)), tr) ∧ c.SaysTr F tr := by
  have hn := usual_nice h hu
  obtain ⟨hc1, hc2⟩ := params_safe hn (keys_c h hu)
  have hsafe := geometry_safe hg hc1 hc2
  obtain ⟨trcl, t1, t2⟩ := read_trcl hF h hu .nil
  obtain ⟨tr, f1, f2⟩ := read_fill hF h hu .nil
  have u1 := read_u h hu .nil
  rw [List.nil_append] at t1 f1 u1
  refine ⟨tr, trcl, ?_, t1, t2, u1, f1, f2⟩
  rw [splitCard_ok hg (startL_params h hu) hsafe.1]
  have ht := trcl_in h hu
  by_cases h0 : paramsText c.params = []
  · rw [if_pos h0]
    have : c.trclParam = none := by
      by_contra h1
      have := ht.mpr h1
      rw [h0] at this
      cases this
    rw [this]
    rfl
  · rw [if_neg h0]
    by_cases h1 : c.trclParam = none
    · have : hasTrcl (paramsText c.params) = false := by
        cases h2 : hasTrcl (paramsText c.params) with
        | false => rfl
        | true => exact absurd h1 (ht.mp h2)
      rw [this, h1]
      rfl
    · rw [ht.mpr h1]
      simp [h1]

/-- C80, restricted to numbers whose exponents have a sign and to the cards described by `Usual`. Missing: each of these conditions is needed (see the
theorems in `Props2`). -/
theorem C80_card_partial (F : Arith V) (hF : ∀ t, Number False t → ∃ v, F.flt t = some v) (c : Written) (h : c.Ok True) (hu : Usual c) :
    ∃ n r, readCell F c.text = .ok (n, r) ∧ Agrees F c n r := by
  have hbl : Gap c.blanks := blanks_gap h.blanks.1
  have hgap : Gap c.gap := h.gap.1
  have hk := (without_params h hu).1
  cases hh : c.head with
  | void g =>
    have hg := h.head
    rw [hh] at hg
    obtain ⟨hg1, ⟨x, q, hg2, hx⟩, y, hy, hy1, hy2⟩ := hg
    have e : c.text = c.blanks ++ (c.name ++ (c.gap ++ (['0'] ++ (g ++ paramsText c.params)))) := by
      unfold Written.text
      rw [hh]
      simp [Head.text]
    have h0 : Digits ['0'] := ⟨by decide, by decide⟩
    have hs : ∀ z, (g ++ paramsText c.params).head? = some z → isWhite z = true := by
      intro z hz
      rw [hg2] at hz
      have : x = z := Option.some.inj hz
      rw [← this]
      rcases hx with rfl | rfl <;> decide
    have hs2 : ∃ z ∈ g ++ paramsText c.params, isWhite z = false ∧ z ≠ '=' := by
      refine ⟨y, List.mem_append_left _ hy, by simp [isWhite, hy1, hy2], ?_⟩
      rintro rfl
      exact geometry_noeq hg1 hy
    have hwk : Without 'k' (c.blanks ++ (c.name ++ (c.gap ++ (['0'] ++ (g ++ paramsText c.params))))) :=
      without_append (without_val (gap_val hbl)).1 (without_append (without_val (digits_val h.name)).1 (without_append (without_val (gap_val hgap)).1
        (without_append (without_val (digits_val h0)).1 (without_append (geometry_chars hg1) hk))))
    have hv := getValues_plain hbl h.name hgap h.gap.2 h0 hs hs2 hwk
    have hcel := celmat_digits (m := ['0']) (s := g ++ paramsText c.params) h.blanks.1 h.name hu.gap h.gap.2 h0 (fun z hz => by
      have := hs z hz
      cases hd : z.isDigit with
      | false => rfl
      | true => rw [numChar_white (Or.inl hd)] at this; cases this)
    obtain ⟨tr, trcl, r1, r2, r3, r4, r5, r6⟩ := read_rest hF h hu hg1
    refine ⟨value c.name, ⟨value c.name, decide (c.trclParam = none), none, some 0, g, paramsText c.params, c.universe.map (fun n => (n : Int)),
      c.fill.map (fun n => (n : Int)), tr, trcl⟩, ?_, ?_⟩
    · unfold readCell
      rw [e, hv]
      unfold cellCardString
      rw [hcel]
      simp only [r1, r2, r4, r5]
      rw [if_neg (by decide)]
      rfl
    · refine ⟨rfl, rfl, ?_, ?_, ?_, rfl, rfl, r6, r3, ?_⟩
      · simp [Written.material, hh]
      · simp [Written.like, hh]
      · intro g' hg'
        simp only [Written.geometry, hh, Option.some.injEq] at hg'
        exact hg'
      · simp [hh, Head.isLike]
  | material m s d g =>
    have hg := h.head
    rw [hh] at hg
    obtain ⟨hm, hm0, hs1, hs1n, hd, hg1, ⟨x, q, hg2, hx⟩, y, hy, hy1, hy2⟩ := hg
    have e : c.text = c.blanks ++ (c.name ++ (c.gap ++ (m ++ (s ++ (d ++ (g ++ paramsText c.params)))))) := by
      unfold Written.text
      rw [hh]
      simp [Head.text]
    have hs : ∀ z, (s ++ (d ++ (g ++ paramsText c.params))).head? = some z → isWhite z = true := gap_head_white hs1 hs1n _
    have hs2 : ∃ z ∈ s ++ (d ++ (g ++ paramsText c.params)), isWhite z = false ∧ z ≠ '=' := by
      cases hd' : d with
      | nil => exact absurd hd' (number_ne hd)
      | cons z d' =>
        have hz := number_mem hd z (by rw [hd']; simp)
        exact ⟨z, by simp, numChar_white hz, (numChar_ne hz).1⟩
    have hdk : Without 'k' d := fun z hz => (numChar_not (number_mem hd z hz)).1
    have hwk : Without 'k' (c.blanks ++ (c.name ++ (c.gap ++ (m ++ (s ++ (d ++ (g ++ paramsText c.params))))))) :=
      without_append (without_val (gap_val hbl)).1 (without_append (without_val (digits_val h.name)).1 (without_append (without_val (gap_val hgap)).1
        (without_append (without_val (digits_val hm)).1 (without_append (without_val (gap_val hs1)).1 (without_append hdk (without_append (geometry_chars hg1) hk))))))
    have hv := getValues_plain hbl h.name hgap h.gap.2 hm hs hs2 hwk
    have hcel := celmat_digits (m := m) (s := s ++ (d ++ (g ++ paramsText c.params))) h.blanks.1 h.name hu.gap h.gap.2 hm (fun z hz => by
      have := hs z hz
      cases hd : z.isDigit with
      | false => rfl
      | true => rw [numChar_white (Or.inl hd)] at this; cases this)
    have hstop : Stop (g ++ paramsText c.params) := by
      intro z hz
      rw [hg2] at hz
      have : x = z := Option.some.inj hz
      rw [← this]
      rcases hx with rfl | rfl <;> decide
    have hnum := searchNum_ok (fun z hz => (gap_quiet hs1 z hz).1) hd hstop
    obtain ⟨tr, trcl, r1, r2, r3, r4, r5, r6⟩ := read_rest hF h hu hg1
    refine ⟨value c.name, ⟨value c.name, decide (c.trclParam = none), none, some (value m), g, paramsText c.params, c.universe.map (fun n => (n : Int)),
      c.fill.map (fun n => (n : Int)), tr, trcl⟩, ?_, ?_⟩
    · have hm1 : low m ≠ ['l', 'i', 'k', 'e'] := by
        intro h0
        obtain ⟨z, hz, hz2⟩ := List.mem_map.mp (show 'k' ∈ low m by rw [h0]; simp)
        exact (digit_not (hm.2 z hz)).1 hz2
      have hm2 : m ≠ ['0'] := by
        intro h0
        rw [h0] at hm0
        exact hm0 rfl
      unfold readCell
      rw [e, hv]
      unfold cellCardString
      rw [hcel]
      simp only [hnum, r1, r2, r4, r5]
      rw [if_neg hm1, if_neg hm2]
      rfl
    · refine ⟨rfl, rfl, ?_, ?_, ?_, rfl, rfl, r6, r3, ?_⟩
      · simp [Written.material, hh]
      · simp [Written.like, hh]
      · intro g' hg'
        simp only [Written.geometry, hh, Option.some.injEq] at hg'
        exact hg'
      · simp [hh, Head.isLike]
  | like w g1 n g2 b g3 =>
    have hg := h.head
    rw [hh] at hg
    obtain ⟨hw, hg1, hg1n, hn, hg2, hg2n, hb, hg3, hg3n⟩ := hg
    have hpn : c.params ≠ [] := h.but (by rw [hh]; trivial)
    obtain ⟨rfl, hg1h⟩ := hu.like w g1 n g2 b g3 hh
    obtain ⟨g1', rfl⟩ : ∃ g1', g1 = ' ' :: g1' := by
      cases g1 with
      | nil => cases hg1h
      | cons x g1' => exact ⟨g1', by rw [Option.some.inj hg1h]⟩
    have hg1' : Gap g1' := by cases hg1; assumption
    have e : c.text = c.blanks ++ (c.name ++ (c.gap ++ (['l', 'i', 'k', 'e'] ++ (' ' :: g1' ++ (n ++ (g2 ++ (b ++ (g3 ++ paramsText c.params)))))))) := by
      unfold Written.text
      rw [hh]
      simp [Head.text]
    have hbw : b ≠ [] ∧ ∀ z ∈ b, isWhite z = false := by
      refine ⟨by rintro rfl; exact absurd hb (by unfold Same; decide), fun z hz => ?_⟩
      have := same_chars hb (by decide) z hz
      simp [isWhite, this.1, this.2.2.1]
    have hs2 : ∃ z ∈ g3 ++ paramsText c.params, isWhite z = false := by
      cases hp : c.params with
      | nil => exact absurd hp hpn
      | cons p ps =>
        obtain ⟨x, r, hk, hx⟩ := key_alpha (h.params.val p (by rw [hp]; simp))
        refine ⟨x, ?_, ?_⟩
        · rw [paramsText_cons]
          unfold Param.text
          rw [hk]
          simp
        · have := (key_chars (h.params.val p (by rw [hp]; simp))).2 x (by rw [hk]; simp)
          simp [isWhite, this.1, this.2.2.1]
    have hv := getValues_like (s := g3 ++ paramsText c.params) hbl h.name hgap h.gap.2 hg1' hn hg2 hg2n hbw (gap_head_white hg3 hg3n _) hs2
    have hcel := celmat_like (s := ' ' :: g1' ++ (n ++ (g2 ++ (b ++ (g3 ++ paramsText c.params))))) h.blanks.1 h.name hu.gap h.gap.2
    have hbut : searchBut (' ' :: g1' ++ (n ++ (g2 ++ (b ++ (g3 ++ paramsText c.params))))) = some (' ' :: g1' ++ (n ++ (g2 ++ b)), g3 ++ paramsText c.params) := by
      have := searchBut_ok (u := ' ' :: g1' ++ (n ++ g2)) (s := g3 ++ paramsText c.params) (b := b) (by
        intro z hz
        rcases List.mem_append.mp hz with hz | hz
        · rcases gap_mem hg1 z hz with rfl | rfl <;> decide
        · rcases List.mem_append.mp hz with hz | hz
          · exact (digit_not (hn.2 z hz)).2.2
          · rcases gap_mem hg2 z hz with rfl | rfl <;> decide) hb
      simpa only [List.append_assoc] using this
    have hint : searchInt (['l', 'i', 'k', 'e'] ++ (' ' :: g1' ++ (n ++ (g2 ++ b)))) = some n := by
      have := searchInt_ok (u := ['l', 'i', 'k', 'e'] ++ (' ' :: g1')) (d := n) (s := g2 ++ b) (by
        intro z hz
        rcases List.mem_append.mp hz with hz | hz
        · have : ∀ z ∈ ['l', 'i', 'k', 'e'], z.isDigit = false := by decide
          exact this z hz
        · exact gap_nodigit hg1 z hz) hn (fun z hz => by
          cases g2 with
          | nil => exact absurd rfl hg2n
          | cons x g2 =>
            have : x = z := Option.some.inj hz
            rw [← this]
            exact gap_nodigit hg2 x List.mem_cons_self)
      simpa only [List.append_assoc] using this
    obtain ⟨trcl, t1, t2⟩ := read_trcl hF h hu hg3
    obtain ⟨tr, f1, f2⟩ := read_fill hF h hu hg3
    have u1 := read_u h hu hg3
    have m1 := read_mat h hu hg3
    refine ⟨value c.name, ⟨value c.name, false, some (value n), (searchMat (g3 ++ paramsText c.params)).map value, ['l', 'i', 'k', 'e'] ++ (' ' :: g1' ++ (n ++ (g2 ++ b))),
      g3 ++ paramsText c.params, c.universe.map (fun n => (n : Int)), c.fill.map (fun n => (n : Int)), tr, trcl⟩, ?_, ?_⟩
    · unfold readCell
      rw [e, hv]
      unfold cellCardString
      rw [hcel]
      simp only [hbut, hint, t1, u1, f1]
      rw [if_pos (by decide)]
      rfl
    · refine ⟨rfl, rfl, ?_, ?_, ?_, rfl, rfl, f2, t2, ?_⟩
      · rw [m1]
        simp [Written.material, hh]
      · simp [Written.like, hh]
      · intro g' hg'
        simp [Written.geometry, hh] at hg'
      · simp [hh, Head.isLike]

end Geouned.CellText
