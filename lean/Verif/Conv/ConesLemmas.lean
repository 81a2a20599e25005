import Verif.Conv.CellProps
import Verif.Misc.ConesProps
/-!
# Lemmas: the numbers (with signs) of a definition are among those of the text it is read from
-/
namespace Geouned.Conv
open Geouned.Text Geouned.Cones

/-- a constant, or a tree without constants whose numbers are all in `A` -/
def Among (A : Int → Prop) (s : Seq) : Prop := ((∃ o l b, s = .boo o l b) ∨ s.NoBool) ∧ ∀ n ∈ lits s, A n

variable {A : Int → Prop}

theorem mem_litsL {es : List Seq} {n : Int} : n ∈ litsL es ↔ ∃ e ∈ es, n ∈ lits e := by
  induction es with
  | nil => simp [litsL]
  | cons e es ih => simp [litsL, ih]

theorem among_int {n : Int} : Among A (.int n) ↔ A n := by
  simp [Among, Seq.NoBool, lits]

theorem among_boo (o : Op) (l : Int) (b : Bool) : Among A (.boo o l b) := ⟨.inl ⟨o, l, b, rfl⟩, by simp [lits]⟩

theorem among_lst {o : Op} {l : Int} {es : List Seq} : Among A (.lst o l es) ↔ ∀ e ∈ es, e.NoBool ∧ ∀ n ∈ lits e, A n := by
  unfold Among
  rw [noBool_lst]
  simp only [lits, mem_litsL]
  constructor
  · rintro ⟨⟨_, _, _, h⟩ | h1, h2⟩ e he
    · cases h
    · exact ⟨h1 e he, fun n hn => h2 n ⟨e, he, hn⟩⟩
  · intro h
    exact ⟨.inr fun e he => (h e he).1, fun n ⟨e, he, hn⟩ => (h e he).2 n hn⟩

/-- an element of a list -/
def Elem (A : Int → Prop) (e : Seq) : Prop := e.NoBool ∧ ∀ n ∈ lits e, A n

theorem elem_int {n : Int} (h : A n) : Elem A (.int n) := by simp [Elem, Seq.NoBool, lits, h]

def AmongItem (A : Int → Prop) : Geouned.Item → Prop
  | .int n => A n
  | .bool _ => True
  | .seq s => Among A s

theorem appendLoop_among {op : Op} : ∀ (items : List Geouned.Item) (l : Int) (es : List Seq) (s' : Seq), (∀ e ∈ es, Elem A e) → (∀ i ∈ items, AmongItem A i) →
    appendLoop op l es items = .ok s' → Among A s' := by
  intro items
  induction items with
  | nil =>
    intro l es s' h1 _ h
    simp only [appendLoop] at h
    cases h
    exact among_lst.2 h1
  | cons i items ih =>
    intro l es s' h1 h2 h
    have h2' : ∀ i ∈ items, AmongItem A i := fun j hj => h2 j (by simp [hj])
    have hi := h2 i (by simp)
    have int_case : ∀ n, A n → (if es.any (isInt n) then appendLoop op l es items
        else if es.any (isInt (-n)) then .ok (.boo op (-1) (!op.neutral)) else appendLoop op (max l 0) (es ++ [.int n]) items) = .ok s' → Among A s' := by
      intro n hn h
      split at h
      · exact ih _ _ _ h1 h2' h
      · split at h
        · cases h; exact among_boo _ _ _
        · refine ih _ _ _ ?_ h2' h
          intro e he
          rcases List.mem_append.1 he with he | he
          · exact h1 e he
          · simp at he; subst he; exact elem_int hn
    have bool_case : ∀ b, (if b == op.neutral then appendLoop op l es items else .ok (.boo op (-1) b)) = .ok s' → Among A s' := by
      intro b h
      split at h
      · exact ih _ _ _ h1 h2' h
      · cases h; exact among_boo _ _ _
    cases i with
    | int n => exact int_case n hi h
    | bool b => exact bool_case b h
    | seq x =>
      cases x with
      | int n => exact int_case n (among_int.1 hi) h
      | boo o k b => exact bool_case b h
      | lst o k xs =>
        refine ih _ _ _ ?_ h2' h
        intro e he
        rcases List.mem_append.1 he with he | he
        · exact h1 e he
        · simp at he; subst he
          obtain ⟨⟨_, _, _, hb⟩ | hb, hl⟩ := hi
          · cases hb
          · exact ⟨hb, hl⟩

theorem append_among {s s' : Seq} {items : List Geouned.Item} (hs : Among A s) (hi : ∀ i ∈ items, AmongItem A i) (h : s.append items = .ok s') : Among A s' := by
  cases s with
  | int n => simp [Seq.append] at h
  | boo o l b =>
    simp only [Seq.append] at h
    split at h
    · unfold assignTuple at h
      split at h
      · cases h
      · cases h
      · cases h
        exact hi (.seq s') (by simp)
      · cases h
      · cases h
    · cases h; exact among_boo _ _ _
  | lst o l es => exact appendLoop_among items l es s' (among_lst.1 hs) hi h

theorem groupLoop_elem : ∀ (k : Nat) (rest kept group : List Seq) (r : List Seq × List Seq), (∀ e ∈ rest, Elem A e) → (∀ e ∈ kept, Elem A e) → (∀ e ∈ group, Elem A e) →
    groupLoop k rest kept group = .ok r → (∀ e ∈ r.1, Elem A e) ∧ ∀ e ∈ r.2, Elem A e := by
  intro k
  induction k with
  | zero =>
    intro rest kept group r h1 h2 h3 h
    simp only [groupLoop] at h
    cases h
    exact ⟨h2, h3⟩
  | succ k ih =>
    intro rest kept group r h1 h2 h3 h
    cases rest with
    | nil =>
      simp only [groupLoop] at h
      cases h
      exact ⟨h2, h3⟩
    | cons x rest =>
      have h1' : ∀ e ∈ rest, Elem A e := fun e he => h1 e (by simp [he])
      have hx := h1 x (by simp)
      cases x with
      | int n =>
        simp only [groupLoop] at h
        refine ih _ _ _ _ ?_ h2 ?_ h
        · unfold removeInt
          split
          · intro e he
            rcases List.mem_cons.1 he with rfl | he
            · exact hx
            · exact h1' e (List.mem_reverse.1 (List.mem_of_mem_eraseP (List.mem_reverse.1 he)))
          · exact h1'
        · intro e he
          rcases List.mem_append.1 he with he | he
          · exact h3 e he
          · simp at he; subst he; exact hx
      | boo o l b => exact absurd hx.1 (by simp [Seq.NoBool])
      | lst o l es =>
        simp only [groupLoop] at h
        split at h
        · next y =>
          refine ih _ _ _ _ h1' h2 ?_ h
          intro e he
          rcases List.mem_append.1 he with he | he
          · exact h3 e he
          · simp at he; subst he
            simpa [Elem, Seq.NoBool, Seq.NoBoolL, lits, litsL] using hx
        · refine ih _ _ _ _ h1' ?_ h3 h
          intro e he
          rcases List.mem_cons.1 he with rfl | he
          · exact hx
          · exact h2 e he

theorem groupSingle_among {s s' : Seq} (hs : Among A s) (h : s.groupSingle = .ok s') : Among A s' := by
  cases s with
  | int n => simp [Seq.groupSingle] at h
  | boo o l b => simp [Seq.groupSingle] at h; subst h; exact hs
  | lst o l es =>
    simp only [Seq.groupSingle] at h
    split at h
    · cases h; exact hs
    · rw [bind_ok] at h
      obtain ⟨⟨kept, group⟩, hg, h⟩ := h
      obtain ⟨h1, h2⟩ := groupLoop_elem _ _ _ _ _ (fun e he => among_lst.1 hs e (List.mem_reverse.1 he)) (by simp) (by simp) hg
      dsimp only at h
      split at h
      · cases h; exact among_lst.2 h1
      · cases h
        refine among_lst.2 fun e he => ?_
        rcases List.mem_cons.1 he with rfl | he
        · refine ⟨(noBool_lst _ _ _).2 fun e he => (h2 e he).1, fun n hn => ?_⟩
          obtain ⟨x, hx, hn⟩ := mem_litsL.1 hn
          exact (h2 x hx).2 n hn
        · exact h1 e he

theorem masked_nums {l i r : List Text.Item} {n : Int} (h : Tok.num n ∈ origs true (masked true l i r)) : Tok.num n ∈ origs true i := by
  unfold masked at h
  split at h
  · simpa [Item.orig] using h
  · simpa [Item.orig] using h

theorem spanInner_eq : ∀ {w i p : List Text.Item}, spanInner w = some (i, p) → w = i ++ .tok .rp :: p
  | [], _, _, h => by simp [spanInner] at h
  | x :: w, i, p, h => by
    unfold spanInner at h
    split at h
    · cases h
    · next e => cases e; cases h; rfl
    · cases h
    · next e =>
      cases e
      rw [Option.map_eq_some_iff] at h
      obtain ⟨⟨a, b⟩, h1, h2⟩ := h
      cases h2
      rw [spanInner_eq h1]
      rfl

theorem findInner_eq : ∀ {w a i p : List Text.Item}, findInner w = some (a, i, p) → w = a ++ .tok .lp :: (i ++ .tok .rp :: p)
  | [], _, _, _, h => by simp [findInner] at h
  | x :: w, a, i, p, h => by
    unfold findInner at h
    split at h
    · cases h
    · next e =>
      cases e
      split at h
      · next hs =>
        cases h
        rw [spanInner_eq hs]
        rfl
      · rw [Option.map_eq_some_iff] at h
        obtain ⟨⟨a', i', p'⟩, h1, h2⟩ := h
        cases h2
        rw [findInner_eq h1]
        rfl
    · next e =>
      cases e
      rw [Option.map_eq_some_iff] at h
      obtain ⟨⟨a', i', p'⟩, h1, h2⟩ := h
      cases h2
      rw [findInner_eq h1]
      rfl

theorem pass_nums {n : Int} : ∀ (k : Nat) (d r : List Text.Item), Tok.num n ∈ origs true (pass true k d r) → Tok.num n ∈ origs true (d ++ r)
  | 0, d, r, h => h
  | k + 1, d, r, h => by
    unfold pass at h
    split at h
    · exact h
    · next pre inner post e =>
      have h := pass_nums k _ _ h
      rw [findInner_eq e]
      simp only [origs_append, origs_cons, List.mem_append, Item.orig] at h ⊢
      rcases h with (((h | h) | h)) | h
      · exact .inl h
      · exact .inr (.inl h)
      · exact .inr (.inr (.inr (.inl (masked_nums h))))
      · exact .inr (.inr (.inr (.inr (.inr h))))

theorem passes_nums {n : Int} : ∀ (k : Nat) (w : List Text.Item), Tok.num n ∈ origs true (passes true k w) → Tok.num n ∈ origs true w
  | 0, w, h => h
  | k + 1, w, h => by
    unfold passes at h
    split at h
    · exact h
    · simpa using pass_nums _ _ _ (passes_nums k _ h)

theorem mask_nums {n : Int} {ts : List Tok} (h : Tok.num n ∈ origs true (mask true ts)) : Tok.num n ∈ ts := by
  have := passes_nums _ _ h
  rwa [origs_map_tok] at this

theorem splitColon_mem {x : Tok} : ∀ {w p : List Text.Item}, p ∈ splitColon w → x ∈ origs true p → x ∈ origs true w
  | [], p, h, hx => by
    simp [splitColon] at h
    subst h
    exact hx
  | i :: w, p, h, hx => by
    rw [origs_cons, List.mem_append]
    by_cases hi : i = .tok .colon
    · subst hi
      rw [splitColon] at h
      rcases List.mem_cons.1 h with rfl | h
      · simp at hx
      · exact .inr (splitColon_mem h hx)
    · obtain ⟨q, qs, e1, e2⟩ := splitColon_cons hi w
      rw [e2] at h
      rcases List.mem_cons.1 h with rfl | h
      · rw [origs_cons, List.mem_append] at hx
        rcases hx with hx | hx
        · exact .inl hx
        · exact .inr (splitColon_mem (by rw [e1]; simp) hx)
      · exact .inr (splitColon_mem (by rw [e1]; simp [h]) hx)

theorem andTerms_mem {x : Tok} : ∀ {w : List Text.Item} {t : List Tok}, t ∈ andTerms w → x ∈ t → x ∈ origs true w
  | [], t, h, _ => by simp [andTerms] at h
  | i :: w, t, h, hx => by
    rw [origs_cons, List.mem_append]
    unfold andTerms at h
    split at h
    · cases h
    · next e =>
      cases e
      rcases List.mem_cons.1 h with rfl | h
      · exact .inl (by simpa [Item.orig] using hx)
      · exact .inr (andTerms_mem h hx)
    · next e =>
      cases e
      rcases List.mem_cons.1 h with rfl | h
      · exact .inl (by simpa [Item.orig] using hx)
      · exact .inr (andTerms_mem h hx)
    · next e =>
      cases e
      exact .inr (andTerms_mem h hx)

theorem outerTerms_nums {ts t : List Tok} {n : Int} (h : t ∈ (outerTerms ts).1) (hn : Tok.num n ∈ t) : Tok.num n ∈ ts := by
  unfold outerTerms at h
  dsimp only at h
  split at h
  · obtain ⟨p, hp, rfl⟩ := List.mem_map.1 h
    exact mask_nums (splitColon_mem hp (mem_strip hn))
  · exact mask_nums (andTerms_mem h hn)

theorem asInteger_mem {ts : List Tok} {n : Int} (h : asInteger ts = some n) : Tok.num n ∈ ts := by
  unfold asInteger at h
  split at h
  · next k hk =>
    cases h
    exact mem_stripTok (mem_stripTok (mem_strip (ts := stripTok .rp (stripTok .lp ts)) (by rw [hk]; simp)))
  · cases h

theorem setLevel_among {l : Int} {s : Seq} (h : Among A s) : Among A (setLevel l s) := by
  cases s with
  | int n => exact h
  | boo o k b => exact among_boo _ _ _
  | lst o k es => exact among_lst.2 (among_lst.1 h)

theorem termLoop_among {rec : List Tok → M Seq} : ∀ (ts : List (List Tok)) (s : Seq) (ns : List Int) (r : Seq × List Int),
    (∀ t ∈ ts, ∀ x, rec t = .ok x → Among A x) → (∀ t ∈ ts, ∀ n, Tok.num n ∈ t → A n) → Among A s → (∀ n ∈ ns, A n) → termLoop rec ts s ns = .ok r →
    Among A r.1 ∧ ∀ n ∈ r.2, A n
  | [], s, ns, r, _, _, h3, h4, h => by
    simp only [termLoop] at h
    cases h
    exact ⟨h3, h4⟩
  | t :: ts, s, ns, r, h1, h2, h3, h4, h => by
    have h1' : ∀ t ∈ ts, ∀ x, rec t = .ok x → Among A x := fun t ht => h1 t (by simp [ht])
    have h2' : ∀ t ∈ ts, ∀ n, Tok.num n ∈ t → A n := fun t ht => h2 t (by simp [ht])
    unfold termLoop at h
    split at h
    · next n hn =>
      refine termLoop_among ts _ _ r h1' h2' h3 ?_ h
      intro m hm
      rcases List.mem_append.1 hm with hm | hm
      · exact h4 m hm
      · simp at hm; subst hm
        exact h2 t (by simp) _ (asInteger_mem hn)
    · rw [bind_ok] at h
      obtain ⟨x, hx, h⟩ := h
      rw [bind_ok] at h
      obtain ⟨s', hs', h⟩ := h
      refine termLoop_among ts _ _ r h1' h2' ?_ h4 h
      refine append_among (setLevel_among h3) ?_ hs'
      intro i hi
      simp at hi
      subst hi
      exact h1 t (by simp) x hx

theorem endDef_among {order : List Int → List Int} (hord : ∀ l n, n ∈ order l ↔ n ∈ l) {op : Op} {s s' : Seq} {ns : List Int} (hs : Among A s) (hn : ∀ n ∈ ns, A n)
    (h : endDef order op s ns = .ok s') : Among A s' := by
  unfold endDef at h
  split at h
  · cases h; exact among_boo _ _ _
  · refine append_among hs ?_ h
    intro i hi
    obtain ⟨n, hn', rfl⟩ := List.mem_map.1 hi
    exact hn n (mem_dedup'.1 ((hord _ _).1 hn'))

/-- The numbers of a definition are, with their signs, in the text; constants are removed while reading. -/
theorem setDef_among {order : List Int → List Int} (hord : ∀ l n, n ∈ order l ↔ n ∈ l) : ∀ (f : Nat) (ts : List Tok) (s : Seq), (∀ n, Tok.num n ∈ ts → A n) →
    setDef order f ts = .ok s → Among A s
  | 0, _, _, _, h => by simp [setDef] at h
  | f + 1, [], _, _, h => by simp [setDef] at h
  | f + 1, t :: ts, s, ha, h => by
    simp only [setDef, bind_ok] at h
    obtain ⟨r, hr, s1, hs1, h⟩ := h
    have hn : ∀ u ∈ (outerTerms (t :: ts)).1, ∀ n, Tok.num n ∈ u → A n := fun u hu n hn => ha n (outerTerms_nums hu hn)
    obtain ⟨r1, r2⟩ := termLoop_among _ _ _ _ (fun u hu x hx => setDef_among hord f u x (hn u hu) hx) hn (among_lst.2 (by simp)) (by simp) hr
    exact groupSingle_among (endDef_among hord r1 r2 hs1) h

/-! ## the numbers of a piece -/

/-- the signed numbers that a face gives -/
def VCut.nums : VCut → List Int
  | .whole n => [n]
  | .cut n m => [n, m]

def UCut.nums : UCut → List Int
  | .closed => []
  | .one a => [a]
  | .two _ a b => [a, b]

def Face.nums : Face → List Int
  | .ignored => []
  | .oblique => []
  | .reversed _ id plane => id :: plane.toList
  | .torus _ v u => v.nums ++ u.nums
  | .other _ var => [var]

theorem torusText_nums {v : VCut} {u : UCut} {n : Int} (h : Tok.num n ∈ torusText v u) : n ∈ v.nums ++ u.nums := by
  have hv : Tok.num n ∈ v.text → n ∈ v.nums := by
    cases v <;> simp [VCut.text, VCut.nums]
  have hu : Tok.num n ∈ u.text → n ∈ u.nums := by
    cases u with
    | closed => simp [UCut.text]
    | one a => simp [UCut.text, UCut.nums]
    | two o a b => cases o <;> simp [UCut.text, UCut.nums]
  cases u with
  | closed => exact List.mem_append_left _ (hv h)
  | one a =>
    simp only [torusText, List.mem_append, List.mem_cons, reduceCtorEq, false_or] at h
    rcases h with h | h
    · exact List.mem_append_left _ (hv h)
    · exact List.mem_append_right _ (hu h)
  | two o a b =>
    simp only [torusText, List.mem_append, List.mem_cons, reduceCtorEq, false_or] at h
    rcases h with h | h
    · exact List.mem_append_left _ (hv h)
    · exact List.mem_append_right _ (hu h)

/-- what the loop over the faces has kept comes from the faces -/
def FromFaces (A : Int → Prop) (s : FState) : Prop :=
  (∀ t ∈ s.piece, ∀ n, Tok.num n ∈ t → A n) ∧ ∀ k ps, (k, ps) ∈ s.extra → ∀ p ∈ ps, A p

theorem faceStep_from {s : FState} {F : Face} (hs : FromFaces A s) (hF : ∀ n ∈ F.nums, A n) : FromFaces A (faceStep s F) := by
  have add : ∀ t : List Tok, (∀ n, Tok.num n ∈ t → A n) → ∀ u ∈ addNew s.piece t, ∀ n, Tok.num n ∈ u → A n := by
    intro t ht u hu
    rcases mem_addNew.1 hu with hu | rfl
    · exact hs.1 u hu
    · exact ht
  cases F with
  | ignored => exact hs
  | oblique => exact hs
  | reversed c id plane =>
    have h1 : ∀ n, Tok.num n ∈ [Tok.num id] → A n := by
      intro n hn; simp at hn; subst hn; exact hF n (by simp [Face.nums])
    cases plane with
    | none => exact ⟨add _ h1, hs.2⟩
    | some p =>
      refine ⟨add _ h1, fun k ps hk q hq => ?_⟩
      rcases mem_addExtra.1 ⟨ps, hk, hq⟩ with ⟨ps', h2, h3⟩ | ⟨-, rfl⟩
      · exact hs.2 k ps' h2 q h3
      · exact hF q (by simp [Face.nums])
  | torus i v u =>
    unfold faceStep
    dsimp only
    split
    · exact hs
    · exact ⟨add _ fun n hn => hF n (torusText_nums hn), hs.2⟩
  | other c var =>
    refine ⟨add _ ?_, hs.2⟩
    intro n hn; simp at hn; subst hn; exact hF n (by simp [Face.nums])

theorem fold_from : ∀ (faces : List Face) (s : FState), FromFaces A s → (∀ F ∈ faces, ∀ n ∈ F.nums, A n) → FromFaces A (faces.foldl faceStep s)
  | [], _, h, _ => h
  | F :: faces, s, h, hF => fold_from faces _ (faceStep_from h (hF F (by simp))) fun G hG => hF G (by simp [hG])

theorem join_mem {α : Type} {sep : List α} {x : α} : ∀ {ts : List (List α)}, x ∈ join sep ts → x ∈ sep ∨ ∃ t ∈ ts, x ∈ t
  | [], h => by simp [join] at h
  | [t], h => .inr ⟨t, by simp, h⟩
  | t :: t' :: ts, h => by
    simp only [join, List.mem_append] at h
    rcases h with h | h | h
    · exact .inr ⟨t, by simp, h⟩
    · exact .inl h
    · rcases join_mem h with h | ⟨u, hu, h⟩
      · exact .inl h
      · exact .inr ⟨u, by simp at hu ⊢; exact .inr hu, h⟩

theorem addExtras_nums : ∀ (e : List (Int × List Int)) (piece : List (List Tok)), (∀ k ps, (k, ps) ∈ e → ∀ p ∈ ps, A p) → (∀ t ∈ piece, ∀ n, Tok.num n ∈ t → A n) →
    ∀ t ∈ addExtras e piece, ∀ n, Tok.num n ∈ t → A n
  | [], _, _, h => h
  | (k, ps) :: r, piece, he, h => by
    have he' : ∀ k ps, (k, ps) ∈ r → ∀ p ∈ ps, A p := fun k ps hk => he k ps (by simp [hk])
    have hps : ∀ p ∈ ps, A p := he k ps (by simp)
    unfold addExtras
    split
    · next heq => cases heq
    · next heq =>
      cases heq
      refine addExtras_nums r _ he' ?_
      intro t ht
      rcases mem_addNew.1 ht with ht | rfl
      · exact h t ht
      · intro n hn; simp at hn; subst hn; exact hps n (by simp)
    · next heq =>
      cases heq
      refine addExtras_nums r _ he' ?_
      intro t ht
      rcases List.mem_append.1 ht with ht | ht
      · exact h t ht
      · simp at ht
        subst ht
        intro n hn
        simp only [orText, List.mem_cons, List.mem_append, reduceCtorEq, false_or, List.not_mem_nil, or_false] at hn
        rcases join_mem hn with hn | ⟨u, hu, hn⟩
        · simp at hn
        · obtain ⟨p, hp, rfl⟩ := List.mem_map.1 hu
          simp at hn
          subst hn
          exact hps n hp

theorem pieceText_nums {faces : List Face} (hF : ∀ F ∈ faces, ∀ n ∈ F.nums, A n) : ∀ n, Tok.num n ∈ pieceText faces → A n := by
  intro n hn
  obtain ⟨h1, h2⟩ := fold_from faces ⟨[], [], -1⟩ (by simp [FromFaces]) hF
  rcases join_mem hn with hn | ⟨t, ht, hn⟩
  · simp at hn
  · exact addExtras_nums _ _ h2 h1 t ht n hn

theorem pieceLoop_among {δ : Type} {order : List Int → List Int} (hord : ∀ l n, n ∈ order l ↔ n ∈ l) (f : Nat) : ∀ (solids : List (δ × List Face)) (d : Seq)
    (r : Seq × List δ), (∀ s ∈ solids, ∀ F ∈ s.2, ∀ n ∈ F.nums, A n) → Among A d → pieceLoop order f solids d = .ok r → Among A r.1
  | [], d, r, _, hd, h => by
    simp only [pieceLoop] at h
    cases h
    exact hd
  | (s, faces) :: rest, d, r, hs, hd, h => by
    have hs' : ∀ s ∈ rest, ∀ F ∈ s.2, ∀ n ∈ F.nums, A n := fun x hx => hs x (by simp [hx])
    simp only [pieceLoop, bind_ok] at h
    obtain ⟨q, hq, h⟩ := h
    cases q with
    | none => exact pieceLoop_among hord f rest d r hs' hd h
    | some q =>
      have hqa : Among A q := by
        unfold readPiece at hq
        split at hq
        · cases hq
        · next t ts e =>
          rw [bind_ok] at hq
          obtain ⟨q', h1, h2⟩ := hq
          cases h2
          rw [← e] at h1
          exact setDef_among hord f _ q (pieceText_nums (hs (s, faces) (by simp))) h1
      dsimp only at h
      split at h
      · simp only [bind_ok] at h
        obtain ⟨d', h1, x, h2, h3⟩ := h
        cases h3
        refine pieceLoop_among hord f rest d' x hs' (append_among hd ?_ h1) h2
        intro i hi
        simp at hi
        subst hi
        exact hqa
      · exact pieceLoop_among hord f rest d r hs' hd h

end Geouned.Conv
