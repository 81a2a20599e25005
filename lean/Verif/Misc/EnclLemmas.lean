import Verif.Misc.EnclSpec
import Verif.Misc.PlanesProps
import Mathlib.Data.List.Induction
import Mathlib.Data.List.Nodup
namespace Geouned.Encl

theorem Depth.mem {es e k} (h : Depth es e k) : e ∈ es := by cases h <;> assumption
theorem Depth.pos {es e k} (h : Depth es e k) : 1 ≤ k := by cases h <;> omega

/-- node: the top or an enclosure that has a depth -/
def Reach (es : List Encl) (n : Nat) : Prop := n = 0 ∨ ∃ e k, Depth es e k ∧ e.id = n

theorem depth_iff_reach {es : List Encl} {e : Encl} (he : e ∈ es) : (∃ k, Depth es e k) ↔ Reach es e.parent := by
  constructor
  · rintro ⟨k, h⟩
    cases h with
    | top _ h => exact Or.inl h
    | sub _ h h' => exact Or.inr ⟨_, _, h, h'.symm⟩
  · rintro (h | ⟨e', k, h, h'⟩)
    · exact ⟨1, .top he h⟩
    · exact ⟨k + 1, .sub he h h'.symm⟩

/-! ## the dictionary -/

def children (es : List Encl) (q : Nat) : List Nat := (es.filter fun e => e.parent == q).map Encl.id

theorem dictAdd_lookup (p c q : Nat) (d : List (Nat × List Nat)) :
    (dictAdd p c d).lookup q = if q = p then some ((d.lookup p).getD [] ++ [c]) else d.lookup q := by
  induction d with
  | nil =>
    simp only [dictAdd, List.lookup]
    by_cases h : q = p
    · subst h; simp
    · have : (q == p) = false := by simp [h]
      simp [this, h]
  | cons kv d ih =>
    obtain ⟨k, v⟩ := kv
    unfold dictAdd
    by_cases hk : k = p
    · subst hk
      simp only [if_true]
      by_cases h : q = k
      · subst h; simp [List.lookup]
      · have : (q == k) = false := by simp [h]
        simp [List.lookup, this, h]
    · simp only [hk, if_false]
      by_cases h : q = k
      · subst h
        simp [List.lookup, hk]
      · have e1 : (q == k) = false := by simp [h]
        have e2 : (p == k) = false := by simp; exact fun h => hk h.symm
        simp only [List.lookup, e1, e2]
        exact ih

theorem childDict_lookup (es : List Encl) (q : Nat) :
    (childDict es).lookup q = if children es q = [] then none else some (children es q) := by
  induction es using List.reverseRecOn with
  | nil => simp [childDict, children]
  | append_singleton es e ih =>
    have h1 : childDict (es ++ [e]) = dictAdd e.parent e.id (childDict es) := by simp [childDict]
    rw [h1, dictAdd_lookup]
    have h2 : children (es ++ [e]) q = children es q ++ if e.parent = q then [e.id] else [] := by
      by_cases h : e.parent = q <;> simp [children, h]
    rw [h2]
    by_cases h : q = e.parent
    · subst h
      rw [ih]
      by_cases hc : children es e.parent = []
      · simp [hc]
      · simp [hc]
    · have h' : ¬ e.parent = q := fun x => h x.symm
      rw [if_neg h, ih]
      simp [h']

theorem lookup_filter (d : List (Nat × List Nat)) (p q : Nat) :
    (d.filter fun kv => kv.1 != p).lookup q = if q = p then none else d.lookup q := by
  induction d with
  | nil => simp
  | cons kv d ih =>
    obtain ⟨k, v⟩ := kv
    by_cases hk : k = p
    · subst hk
      simp only [List.filter, bne_self_eq_false]
      rw [ih]
      by_cases h : q = k
      · simp [h]
      · have e1 : (q == k) = false := by simp [h]
        simp [h, List.lookup, e1]
    · have e : (k != p) = true := by simp [hk]
      simp only [List.filter, e]
      by_cases h : q = k
      · subst h; simp [List.lookup, hk]
      · have e1 : (q == k) = false := by simp [h]
        simp only [List.lookup, e1]
        rw [ih]

theorem filter_length_lt (d : List (Nat × List Nat)) (p : Nat) (l : List Nat) (h : d.lookup p = some l) :
    (d.filter fun kv => kv.1 != p).length < d.length := by
  induction d with
  | nil => simp at h
  | cons kv d ih =>
    obtain ⟨k, v⟩ := kv
    by_cases hk : k = p
    · subst hk
      simp only [List.filter, bne_self_eq_false, List.length_cons]
      have := List.length_filter_le (fun kv : Nat × List Nat => kv.1 != k) d
      omega
    · have e : (k != p) = true := by simp [hk]
      have e1 : (p == k) = false := by simp; exact fun x => hk x.symm
      simp only [List.lookup, e1] at h
      simp only [List.filter, e, List.length_cons]
      have := ih h
      omega

theorem isEmpty_iff_lookup (d : List (Nat × List Nat)) : d.isEmpty = true ↔ ∀ q, d.lookup q = none := by
  cases d with
  | nil => simp
  | cons kv d =>
    constructor
    · simp
    · intro h
      have := h kv.1
      simp [List.lookup] at this

/-! ## the walk -/

structure Inv (es : List Encl) (dict : List (Nat × List Nat)) (front : List Nat) : Prop where
  ent : ∀ q l, dict.lookup q = some l → l = children es q ∧ l ≠ []
  gone : ∀ q, dict.lookup q = none → children es q = [] ∨ Reach es q
  sound : ∀ n ∈ front, Reach es n
  closed : ∀ n, (n = 0 ∨ ∃ e ∈ es, e.id = n ∧ dict.lookup e.parent = none) → n ∈ front ∨ dict.lookup n = none

theorem mem_children {es : List Encl} {n q : Nat} : n ∈ children es q ↔ ∃ e ∈ es, e.parent = q ∧ e.id = n := by
  simp [children, and_assoc]

theorem inv_init (es : List Encl) : Inv es (childDict es) [0] where
  ent q l h := by
    rw [childDict_lookup] at h
    split at h
    · cases h
    · rename_i hc; have := Option.some.inj h; subst this; exact ⟨rfl, hc⟩
  gone q h := by
    rw [childDict_lookup] at h
    split at h
    · exact Or.inl (by assumption)
    · cases h
  sound n hn := by simp at hn; exact Or.inl hn
  closed n h := by
    rcases h with rfl | ⟨e, he, _, h⟩
    · simp
    · rw [childDict_lookup] at h
      split at h
      · rename_i hc
        have : e.id ∈ children es e.parent := mem_children.2 ⟨e, he, rfl, rfl⟩
        rw [hc] at this
        simp at this
      · cases h

theorem inv_visit {es : List Encl} {c : Bool} {next : List Nat} {dict : List (Nat × List Nat)} {p : Nat} {rem : List Nat}
    (h : Inv es dict (p :: rem ++ next)) :
    Inv es (visit (c, next, dict) p).2.2 (rem ++ (visit (c, next, dict) p).2.1) := by
  unfold visit
  dsimp only
  split
  · rename_i l hl
    have hp : Reach es p := h.sound p (by simp)
    have el := (h.ent p l hl).1
    refine ⟨?_, ?_, ?_, ?_⟩
    · intro q l' hq
      rw [lookup_filter] at hq
      split at hq
      · cases hq
      · exact h.ent q l' hq
    · intro q hq
      rw [lookup_filter] at hq
      split at hq
      · rename_i e; subst e; exact Or.inr hp
      · exact h.gone q hq
    · intro n hn
      simp only [List.mem_append] at hn
      rcases hn with hn | hn | hn
      · exact h.sound n (by simp [hn])
      · exact h.sound n (by simp [hn])
      · rw [el] at hn
        obtain ⟨e, he, e1, e2⟩ := mem_children.1 hn
        obtain ⟨k, hk⟩ := (depth_iff_reach he).2 (by rw [e1]; exact hp)
        exact Or.inr ⟨e, k, hk, e2⟩
    · intro n hn
      have hold : (n = 0 ∨ ∃ e ∈ es, e.id = n ∧ dict.lookup e.parent = none) ∨ n ∈ l := by
        rcases hn with rfl | ⟨e, he, e1, e2⟩
        · exact Or.inl (Or.inl rfl)
        · rw [lookup_filter] at e2
          split at e2
          · rename_i e3
            right
            rw [el]
            exact mem_children.2 ⟨e, he, e3, e1⟩
          · exact Or.inl (Or.inr ⟨e, he, e1, e2⟩)
      rcases hold with hold | hold
      · rcases h.closed n hold with hf | hf
        · simp only [List.cons_append, List.mem_cons, List.mem_append] at hf
          rcases hf with rfl | hf | hf
          · right; rw [lookup_filter]; simp
          · left; simp [hf]
          · left; simp [hf]
        · right; rw [lookup_filter, hf]; simp
      · left; simp [hold]
  · rename_i hl
    refine ⟨h.ent, h.gone, fun n hn => h.sound n (by simp only [List.cons_append]; exact List.mem_cons_of_mem _ hn), ?_⟩
    intro n hn
    rcases h.closed n hn with hf | hf
    · simp only [List.cons_append, List.mem_cons] at hf
      rcases hf with rfl | hf
      · exact Or.inr hl
      · exact Or.inl hf
    · exact Or.inr hf

theorem inv_fold {es : List Encl} (rem : List Nat) (c : Bool) (next : List Nat) (dict : List (Nat × List Nat))
    (h : Inv es dict (rem ++ next)) :
    Inv es (rem.foldl visit (c, next, dict)).2.2 (rem.foldl visit (c, next, dict)).2.1 := by
  induction rem generalizing c next dict with
  | nil => exact h
  | cons p rem ih => exact ih _ _ _ (inv_visit h)

theorem fold_flag (rem : List Nat) (s : Bool × List Nat × List (Nat × List Nat)) :
    (rem.foldl visit s).2.2.length ≤ s.2.2.length ∧
    ((rem.foldl visit s).1 = true → s.1 = true ∨ (rem.foldl visit s).2.2.length < s.2.2.length) ∧
    ((rem.foldl visit s).1 = false → (rem.foldl visit s).2.1 = s.2.1 ∧ s.1 = false) := by
  induction rem generalizing s with
  | nil => simp
  | cons p rem ih =>
    simp only [List.foldl_cons]
    obtain ⟨h1, h2, h3⟩ := ih (visit s p)
    unfold visit at h1 h2 h3 ⊢
    cases hl : s.2.2.lookup p with
    | none => simp only [hl] at h1 h2 h3 ⊢; exact ⟨h1, h2, h3⟩
    | some l =>
      simp only [hl] at h1 h2 h3 ⊢
      have hlt := filter_length_lt _ _ _ hl
      refine ⟨by omega, fun _ => Or.inr (by omega), fun hf => ?_⟩
      have := (h3 hf).2
      cases this

theorem walk_spec {es : List Encl} : ∀ (fuel : Nat) (front : List Nat) (dict : List (Nat × List Nat)), dict.length < fuel →
    Inv es dict front → ∃ d, walk fuel front dict = .ok d ∧ Inv es d []
  | 0, _, _, h, _ => by omega
  | k + 1, front, dict, hlt, h => by
    have hI := inv_fold front false [] dict (by simpa using h)
    obtain ⟨h1, h2, h3⟩ := fold_flag front (false, [], dict)
    unfold walk
    dsimp only
    generalize front.foldl visit (false, [], dict) = s at hI h1 h2 h3
    by_cases hs : s.1 = true
    · simp only [hs, if_true]
      have := (h2 hs).resolve_left (by simp)
      dsimp only at this
      exact walk_spec k s.2.1 s.2.2 (by omega) hI
    · have hs' : s.1 = false := by simpa using hs
      simp only [hs', Bool.false_eq_true, if_false]
      rw [(h3 hs').1] at hI
      exact ⟨_, rfl, hI⟩

theorem inv_end {es : List Encl} {d : List (Nat × List Nat)} (h : Inv es d []) :
    d.isEmpty = true ↔ ∀ e ∈ es, ∃ k, Depth es e k := by
  have hz : ∀ n, Reach es n → d.lookup n = none := by
    have hd : ∀ e k, Depth es e k → d.lookup e.id = none := by
      intro e k hk
      induction hk with
      | top he hp =>
        have h0 := h.closed 0 (Or.inl rfl)
        simp only [List.not_mem_nil, false_or] at h0
        have := h.closed _ (Or.inr ⟨_, he, rfl, by rw [hp]; exact h0⟩)
        simpa using this
      | sub he _ hp ih =>
        have := h.closed _ (Or.inr ⟨_, he, rfl, by rw [hp]; exact ih⟩)
        simpa using this
    rintro n (rfl | ⟨e, k, hk, rfl⟩)
    · have h0 := h.closed 0 (Or.inl rfl)
      simpa using h0
    · exact hd e k hk
  rw [isEmpty_iff_lookup]
  constructor
  · intro hn e he
    rw [depth_iff_reach he]
    rcases h.gone e.parent (hn _) with hc | hr
    · have : e.id ∈ children es e.parent := mem_children.2 ⟨e, he, rfl, rfl⟩
      rw [hc] at this
      simp at this
    · exact hr
  · intro ha q
    cases hl : d.lookup q with
    | none => rfl
    | some l =>
      obtain ⟨el, hne⟩ := h.ent q l hl
      by_cases hc : children es q = []
      · exact absurd (el.trans hc) hne
      · obtain ⟨n, hn⟩ := List.exists_mem_of_ne_nil _ hc
        obtain ⟨e, he, e1, _⟩ := mem_children.1 hn
        obtain ⟨k, hk⟩ := ha e he
        have := hz q (by rw [← e1]; exact (depth_iff_reach he).1 ⟨k, hk⟩)
        rw [hl] at this
        cases this

theorem childDict_length (es : List Encl) : (childDict es).length ≤ es.length := by
  have key : ∀ (p c : Nat) (d : List (Nat × List Nat)), (dictAdd p c d).length ≤ d.length + 1 := by
    intro p c d
    induction d with
    | nil => simp [dictAdd]
    | cons kv d ih =>
      unfold dictAdd
      split
      · simp
      · simp only [List.length_cons]; omega
  induction es using List.reverseRecOn with
  | nil => simp [childDict]
  | append_singleton es e ih =>
    have h1 : childDict (es ++ [e]) = dictAdd e.parent e.id (childDict es) := by simp [childDict]
    rw [h1]
    have := key e.parent e.id (childDict es)
    simp only [List.length_append, List.length_cons, List.length_nil]
    omega

theorem hasRepeated_iff (l : List Nat) : hasRepeated l = false ↔ l.Nodup := by
  induction l with
  | nil => simp [hasRepeated]
  | cons a l ih => simp [hasRepeated, ih]

theorem checkTree_iff (es : List Encl) (fuel : Nat) (hf : es.length < fuel) :
    (Hierarchy es → checkTree fuel es = .ok ()) ∧ (¬ Hierarchy es → checkTree fuel es = .error .valueError) := by
  obtain ⟨d, hd, hI⟩ := walk_spec fuel [0] (childDict es) (by have := childDict_length es; omega) (inv_init es)
  have hE := inv_end hI
  unfold checkTree
  by_cases hb : ((es.map Encl.id).contains 0 || !(es.map Encl.parent).contains 0 || hasRepeated (es.map Encl.id)) = true
  · rw [if_pos hb]
    refine ⟨fun h => ?_, fun _ => rfl⟩
    exfalso
    obtain ⟨h1, h2, h3, h4⟩ := h
    simp only [Bool.or_eq_true, Bool.not_eq_true', List.contains_iff_mem] at hb
    rcases hb with (hb | hb) | hb
    · obtain ⟨e, he, e0⟩ := List.mem_map.1 hb
      exact h2 e he e0
    · obtain ⟨e, he⟩ := List.exists_mem_of_ne_nil _ h1
      obtain ⟨k, hk⟩ := h4 e he
      have : ∃ e ∈ es, e.parent = 0 := by
        clear hE hI hd h4
        induction hk with
        | top h h' => exact ⟨_, h, h'⟩
        | sub _ hd' _ ih => exact ih hd'.mem
      obtain ⟨e', he', e0⟩ := this
      have hm : 0 ∈ es.map Encl.parent := List.mem_map.2 ⟨e', he', e0⟩
      rw [← List.contains_iff_mem, hb] at hm
      cases hm
    · rw [(hasRepeated_iff _).2 h3] at hb
      cases hb
  · rw [if_neg hb, hd]
    simp only [bind, Except.bind]
    have hb' : ((es.map Encl.id).contains 0 || !(es.map Encl.parent).contains 0 || hasRepeated (es.map Encl.id)) = false := by
      simpa using hb
    simp only [Bool.or_eq_false_iff, Bool.not_eq_false'] at hb'
    obtain ⟨⟨b1, b2⟩, b3⟩ := hb'
    have hH : d.isEmpty = true → Hierarchy es := by
      intro he
      refine ⟨?_, ?_, (hasRepeated_iff _).1 b3, hE.1 he⟩
      · rintro rfl; simp at b2
      · intro e hm e0
        have : (es.map Encl.id).contains 0 = true := List.contains_iff_mem.2 (List.mem_map.2 ⟨e, hm, e0⟩)
        rw [b1] at this
        cases this
    refine ⟨fun h => ?_, fun h => ?_⟩
    · rw [if_pos (hE.2 h.2.2.2)]
    · rw [if_neg (fun he => h (hH he))]

/-! ## the levels -/

theorem exists_least {es : List Encl} {e : Encl} {k : Nat} (h : Depth es e k) : ∃ m, LeastDepth es e m := by
  classical
  have hex : ∃ k, Depth es e k := ⟨k, h⟩
  exact ⟨Nat.find hex, Nat.find_spec hex, fun j hj => Nat.find_min' hex hj⟩

theorem LeastDepth.parent {es : List Encl} {e : Encl} {k : Nat} (h : LeastDepth es e (k + 2)) :
    ∃ e', LeastDepth es e' (k + 1) ∧ e.parent = e'.id := by
  obtain ⟨h1, h2⟩ := h
  cases h1 with
  | sub he hd hp =>
    rename_i e'
    refine ⟨e', ⟨hd, fun j hj => ?_⟩, hp⟩
    have := h2 (j + 1) (.sub he hj hp)
    omega

theorem LeastDepth.unique {es : List Encl} {e : Encl} {j k : Nat} (h : LeastDepth es e j) (h' : LeastDepth es e k) : j = k :=
  le_antisymm (h.2 _ h'.1) (h'.2 _ h.1)

/-- state of the loop before round `k` (0-based) -/
structure LInv (es temp : List Encl) (cur : List Nat) (k : Nat) : Prop where
  temp_eq : ∀ e, e ∈ temp ↔ e ∈ es ∧ ∀ j, LeastDepth es e j → k < j
  cur_eq : ∀ n, n ∈ cur ↔ (k = 0 ∧ n = 0) ∨ ∃ e, LeastDepth es e k ∧ e.id = n

theorem linv_init (es : List Encl) : LInv es es [0] 0 where
  temp_eq e := ⟨fun h => ⟨h, fun j hj => hj.1.pos⟩, fun h => h.1⟩
  cur_eq n := by
    simp only [List.mem_singleton, true_and]
    constructor
    · exact Or.inl
    · rintro (h | ⟨e, h, _⟩)
      · exact h
      · exact absurd h.1.pos (by omega)

theorem linv_sel {es temp : List Encl} {cur : List Nat} {k : Nat} (h : LInv es temp cur k) (e : Encl) :
    (e ∈ temp ∧ e.parent ∈ cur) ↔ LeastDepth es e (k + 1) := by
  constructor
  · rintro ⟨h1, h2⟩
    obtain ⟨he, hmin⟩ := (h.temp_eq e).1 h1
    have hd : Depth es e (k + 1) := by
      rcases (h.cur_eq _).1 h2 with ⟨rfl, h0⟩ | ⟨e', h', hid⟩
      · exact .top he h0
      · exact .sub he h'.1 hid.symm
    obtain ⟨m, hm⟩ := exists_least hd
    have h3 := hmin m hm
    have h4 := hm.2 _ hd
    have : m = k + 1 := by omega
    rw [this] at hm
    exact hm
  · intro hl
    refine ⟨(h.temp_eq e).2 ⟨hl.1.mem, fun j hj => by rw [hj.unique hl]; omega⟩, (h.cur_eq _).2 ?_⟩
    cases k with
    | zero =>
      left
      refine ⟨rfl, ?_⟩
      cases hl.1 with
      | top _ h => exact h
      | sub _ hd _ => exact absurd hd.pos (by omega)
    | succ k =>
      obtain ⟨e', h', hp⟩ := hl.parent
      exact Or.inr ⟨e', h', hp.symm⟩

theorem linv_step {es temp : List Encl} {cur : List Nat} {k : Nat} (h : LInv es temp cur k) :
    LInv es (temp.filter fun x => !cur.contains x.parent) ((temp.filter fun x => cur.contains x.parent).map Encl.id) (k + 1) where
  temp_eq e := by
    have hs := linv_sel h e
    simp only [List.mem_filter, Bool.not_eq_true', ← Bool.not_eq_true, List.contains_iff_mem]
    constructor
    · rintro ⟨h1, h2⟩
      obtain ⟨he, hmin⟩ := (h.temp_eq e).1 h1
      refine ⟨he, fun j hj => ?_⟩
      have := hmin j hj
      rcases Nat.lt_or_ge (k + 1) j with hlt | hge
      · exact hlt
      · have : j = k + 1 := by omega
        subst this
        exact absurd (hs.2 hj).2 h2
    · rintro ⟨he, hmin⟩
      have h1 : e ∈ temp := (h.temp_eq e).2 ⟨he, fun j hj => by have := hmin j hj; omega⟩
      refine ⟨h1, fun h2 => ?_⟩
      have := hmin _ (hs.1 ⟨h1, h2⟩)
      omega
  cur_eq n := by
    simp only [List.mem_map, List.mem_filter, List.contains_iff_mem, Nat.add_eq_zero_iff, Nat.one_ne_zero, and_false,
      false_and, false_or]
    constructor
    · rintro ⟨e, he, rfl⟩
      exact ⟨e, (linv_sel h e).1 he, rfl⟩
    · rintro ⟨e, he, rfl⟩
      exact ⟨e, (linv_sel h e).2 he, rfl⟩

theorem sel_ne_nil {es temp : List Encl} {cur : List Nat} {k : Nat} (h : LInv es temp cur k)
    (hall : ∀ e ∈ es, ∃ j, Depth es e j) (hne : temp ≠ []) : (temp.filter fun x => cur.contains x.parent) ≠ [] := by
  obtain ⟨e, he⟩ := List.exists_mem_of_ne_nil _ hne
  obtain ⟨hes, hmin⟩ := (h.temp_eq e).1 he
  obtain ⟨j, hj⟩ := hall e hes
  obtain ⟨m, hm⟩ := exists_least hj
  have hk := hmin m hm
  have key : ∀ (i : Nat) (e : Encl), LeastDepth es e (k + 1 + i) → ∃ e', LeastDepth es e' (k + 1) := by
    intro i
    induction i with
    | zero => intro e he; exact ⟨e, he⟩
    | succ i ih =>
      intro e he
      have e1 : k + 1 + (i + 1) = (k + i) + 2 := by omega
      rw [e1] at he
      obtain ⟨e', h', _⟩ := he.parent
      exact ih e' (by rw [show k + 1 + i = k + i + 1 by omega]; exact h')
  obtain ⟨e', h'⟩ := key (m - (k + 1)) e (by rw [show k + 1 + (m - (k + 1)) = m by omega]; exact hm)
  have := (linv_sel h e').2 h'
  intro hnil
  have hm : e' ∈ temp.filter fun x => cur.contains x.parent :=
    List.mem_filter.2 ⟨this.1, List.contains_iff_mem.2 this.2⟩
  rw [hnil] at hm
  simp at hm

theorem levels_spec {es : List Encl} : ∀ (fuel : Nat) (temp : List Encl) (cur : List Nat) (k : Nat), temp.length ≤ fuel →
    (∀ e ∈ es, ∃ j, Depth es e j) → LInv es temp cur k →
    ∃ ls, levels fuel temp cur = .ok (ls ++ [[]]) ∧ ls.flatten.Perm temp ∧
      (∀ (i : Nat) (hi : i < ls.length) (e : Encl), e ∈ ls[i] ↔ LeastDepth es e (k + 1 + i)) ∧
      (∀ l ∈ ls, l ≠ []) ∧ (∀ e ∈ temp, ∀ j, LeastDepth es e j → j < k + 1 + ls.length)
  | fuel, [], cur, k, _, _, _ => by
    refine ⟨[], ?_, by simp, by simp, by simp, by simp⟩
    unfold levels
    rfl
  | 0, e :: es', cur, k, h, _, _ => by simp at h
  | fuel + 1, e :: es', cur, k, hlen, hall, hI => by
    have hne := sel_ne_nil hI hall (by simp)
    have hlt : ((e :: es').filter fun x => !cur.contains x.parent).length ≤ fuel := by
      have h1 : ((e :: es').filter fun x => !cur.contains x.parent).length +
          ((e :: es').filter fun x => cur.contains x.parent).length = (e :: es').length := by
        have hp := List.filter_append_perm (fun x : Encl => cur.contains x.parent) (e :: es')
        have := hp.length_eq
        simp only [List.length_append] at this
        omega
      have h2 : 0 < ((e :: es').filter fun x => cur.contains x.parent).length := List.length_pos_iff.2 hne
      simp only [List.length_cons] at hlen h1
      omega
    obtain ⟨ls, h1, h2, h3, h4, h5⟩ := levels_spec fuel _ _ (k + 1) hlt hall (linv_step hI)
    refine ⟨((e :: es').filter fun x => cur.contains x.parent) :: ls, ?_, ?_, ?_, ?_, ?_⟩
    · simp only [levels, h1, bind, Except.bind]
      rfl
    · rw [List.flatten_cons]
      exact (List.Perm.append_left _ h2).trans (List.filter_append_perm _ _)
    · intro i hi x
      cases i with
      | zero =>
        simp only [List.getElem_cons_zero, List.mem_filter, List.contains_iff_mem, Nat.add_zero]
        exact linv_sel hI x
      | succ i =>
        simp only [List.getElem_cons_succ]
        rw [h3 i (by simpa using hi) x, show k + 1 + 1 + i = k + 1 + (i + 1) by omega]
    · intro l hl
      rcases List.mem_cons.1 hl with rfl | hl
      · exact hne
      · exact h4 l hl
    · intro x hx j hj
      by_cases hc : x.parent ∈ cur
      · have := (linv_sel hI x).1 ⟨hx, hc⟩
        rw [hj.unique this]
        simp only [List.length_cons]
        omega
      · have hx' : x ∈ (e :: es').filter fun x => !cur.contains x.parent := by
          refine List.mem_filter.2 ⟨hx, ?_⟩
          simp only [Bool.not_eq_true', ← Bool.not_eq_true, List.contains_iff_mem]
          exact hc
        have := h5 x hx' j hj
        simp only [List.length_cons]
        omega

theorem levels_stuck {es : List Encl} {x : Encl} (hx : ∀ j, ¬ Depth es x j) (hxe : x ∈ es) :
    ∀ (fuel : Nat) (temp : List Encl) (cur : List Nat) (k : Nat), LInv es temp cur k → levels fuel temp cur = .error .fuel
  | fuel, [], cur, k, hI => by
    have : x ∈ ([] : List Encl) := (hI.temp_eq x).2 ⟨hxe, fun j hj => absurd hj.1 (hx j)⟩
    simp at this
  | 0, e :: es', cur, k, hI => by unfold levels; rfl
  | fuel + 1, e :: es', cur, k, hI => by
    have := levels_stuck hx hxe fuel _ _ (k + 1) (linv_step hI)
    simp only [levels, this, bind, Except.bind]

end Geouned.Encl
