import Verif.Reg.Model
import Mathlib.Tactic.Linarith
import Mathlib.Data.List.Pairwise
namespace Geouned.Reg
variable {α : Type}

/-- the invariant of a registry: the number table agrees with the lists, numbers are increasing in each list, no number
is in two lists, numbers lie in `offset < i ≤ offset + n` -/
structure Inv (r : Reg α) : Prop where
  tab : ∀ k, r.surfIndex k = (r.lists k).map Prod.fst
  sorted : ∀ k, ((r.lists k).map Prod.fst).Pairwise (· < ·)
  disj : ∀ k k' e e', e ∈ r.lists k → e' ∈ r.lists k' → e.1 = e'.1 → k = k'

/-- numbers used lie in the range given out -/
def InRange (r : Reg α) : Prop := ∀ k, ∀ e ∈ r.lists k, r.offset < e.1 ∧ e.1 ≤ r.offset + r.surfaceNumber

/-- the cached position exists (or nothing is cached, or the list is empty) -/
def Fresh (r : Reg α) : Prop := ∀ k i, r.last = some (k, i) → (r.lists k).length > 0 → i < (r.lists k).length

theorem mem_keys (k : Key) : k ∈ keys := by cases k <;> decide

theorem findKey_none {tab : Key → List Int} {i : Int} : ∀ ks, findKey tab i ks = none ↔ ∀ k ∈ ks, i ∉ tab k
  | [] => by simp [findKey]
  | k :: ks => by
    unfold findKey
    split
    · rename_i h; simp [h]
    · rename_i h; rw [findKey_none ks]; simp [h]

theorem findKey_some {tab : Key → List Int} {i : Int} {k : Key} {p : Nat} :
    ∀ {ks}, findKey tab i ks = some (k, p) → i ∈ tab k ∧ p = (tab k).idxOf i
  | [], h => by simp [findKey] at h
  | k' :: ks, h => by
    unfold findKey at h
    split at h
    · rename_i hm
      simp only [Option.some.injEq, Prod.mk.injEq] at h
      obtain ⟨rfl, rfl⟩ := h
      exact ⟨hm, rfl⟩
    · exact findKey_some h

/-- unique entry of a number -/
theorem Inv.unique {r : Reg α} (h : Inv r) {k k' e e'} (he : e ∈ r.lists k) (he' : e' ∈ r.lists k') (heq : e.1 = e'.1) :
    k = k' ∧ e = e' := by
  have hk := h.disj k k' e e' he he' heq
  subst hk
  refine ⟨rfl, ?_⟩
  have hs := h.sorted k
  have hnd : ((r.lists k).map Prod.fst).Nodup := hs.imp (fun h => ne_of_lt h)
  exact List.inj_on_of_nodup_map hnd he he' heq

/-- what `search` returns -/
theorem search_spec {r : Reg α} (h : Inv r) (index : Int) :
    (∃ k e, e ∈ r.lists k ∧ e.1 = index ∧ ∃ i, (r.lists k)[i]? = some e ∧
      r.search index = .ok (some e, { r with last := some (k, i) })) ∨
    ((∀ k, ∀ e ∈ r.lists k, e.1 ≠ index) ∧ r.search index = .ok (none, r)) := by
  unfold Reg.search
  cases hf : findKey r.surfIndex index keys with
  | none =>
    right
    rw [findKey_none] at hf
    refine ⟨fun k e he hi => hf k (mem_keys k) ?_, rfl⟩
    rw [h.tab]; exact List.mem_map.2 ⟨e, he, hi⟩
  | some x =>
    obtain ⟨k, p⟩ := x
    left
    obtain ⟨hm, hp⟩ := findKey_some hf
    simp only
    rw [h.tab] at hm hp
    have hlt : p < (r.lists k).length := by
      rw [hp]; have := List.idxOf_lt_length_iff.2 hm; simpa using this
    have hfst : ((r.lists k)[p]).1 = index := by
      have h1 : ((r.lists k).map Prod.fst)[p]'(by simpa using hlt) = index := by
        subst hp; exact List.getElem_idxOf _
      simpa using h1
    rw [List.getElem?_eq_getElem hlt]
    exact ⟨k, (r.lists k)[p], List.getElem_mem hlt, hfst, p, List.getElem?_eq_getElem hlt, rfl⟩

/-- the state after a successful look-up differs only in the cache -/
theorem getSurface_spec {r : Reg α} (h : Inv r) (hf : Fresh r) (index : Int) :
    (∃ k e, e ∈ r.lists k ∧ e.1 = index ∧ ∃ i, (r.lists k)[i]? = some e ∧
      r.getSurface index = .ok (some e, { r with last := some (k, i) })) ∨
    ((∀ k, ∀ e ∈ r.lists k, e.1 ≠ index) ∧ r.getSurface index = .ok (none, r)) := by
  unfold Reg.getSurface
  cases hl : r.last with
  | none => exact search_spec h index
  | some x =>
    obtain ⟨k, i⟩ := x
    simp only
    split
    · rename_i hpos
      have hi := hf k i hl hpos
      rw [List.getElem?_eq_getElem hi]
      simp only
      split
      · rename_i heq
        left
        refine ⟨k, _, List.getElem_mem hi, heq, i, List.getElem?_eq_getElem hi, ?_⟩
        congr 2
        rw [← hl]
      · exact search_spec h index
    · exact search_spec h index

theorem Inv.setLast {r : Reg α} (h : Inv r) (x) : Inv { r with last := x } := ⟨h.tab, h.sorted, h.disj⟩

theorem fresh_setLast {r : Reg α} {k : Key} {i : Nat} {e} (hi : (r.lists k)[i]? = some e) :
    Fresh { r with last := some (k, i) } := by
  intro k' i' h _
  simp only [Option.some.injEq, Prod.mk.injEq] at h
  obtain ⟨rfl, rfl⟩ := h
  exact (List.getElem?_eq_some_iff.1 hi).1

theorem findSame_some {same : α → α → Bool} {s : α} : ∀ {l : List (Int × α)} {j i idx}, findSame same s l j = some (i, idx) →
    ∃ t, j ≤ i ∧ l[i - j]? = some (idx, t) ∧ same s t = true
  | [], j, i, idx, h => by simp [findSame] at h
  | e :: es, j, i, idx, h => by
    unfold findSame at h
    split at h
    · rename_i hs
      simp only [Option.some.injEq, Prod.mk.injEq] at h
      obtain ⟨rfl, rfl⟩ := h
      exact ⟨e.2, le_rfl, by simp, hs⟩
    · obtain ⟨t, h1, h2, h3⟩ := findSame_some h
      refine ⟨t, by omega, ?_, h3⟩
      have : i - j = (i - (j + 1)) + 1 := by omega
      rw [this, List.getElem?_cons_succ]; exact h2

theorem findSame_none {same : α → α → Bool} {s : α} : ∀ {l : List (Int × α)} {j}, findSame same s l j = none ↔
    ∀ e ∈ l, same s e.2 = false
  | [], j => by simp [findSame]
  | e :: es, j => by
    unfold findSame
    split
    · rename_i h; simp [h]
    · rename_i h; rw [findSame_none]; simp [h]

theorem upd_same {β : Type} (f : Key → β) (k : Key) (v : β) : upd f k v k = v := by simp [upd]
theorem upd_ne {β : Type} (f : Key → β) {k j : Key} (v : β) (h : j ≠ k) : upd f k v j = f j := by simp [upd, h]

theorem add_inv {r : Reg α} (h : Inv r) (hr : InRange r) (k : Key) (same : α → α → Bool) (s : α) :
    Inv (r.add k same s).2 ∧ InRange (r.add k same s).2 ∧ Fresh (r.add k same s).2 := by
  unfold Reg.add
  cases hf : findSame same s (r.lists k) 0 with
  | some x =>
    obtain ⟨i, idx⟩ := x
    obtain ⟨t, _, ht, _⟩ := findSame_some hf
    refine ⟨h.setLast _, hr, fresh_setLast (e := (idx, t)) (by simpa using ht)⟩
  | none =>
    simp only
    refine ⟨⟨?_, ?_, ?_⟩, ?_, ?_⟩
    · intro j
      by_cases hj : j = k
      · subst hj; simp only [upd_same, List.map_append, h.tab, List.map_cons, List.map_nil]
      · simp only [upd_ne _ _ hj, h.tab]
    · intro j
      by_cases hj : j = k
      · subst hj
        simp only [upd_same, List.map_append, List.map_cons, List.map_nil, List.pairwise_append, List.pairwise_cons,
          List.not_mem_nil, IsEmpty.forall_iff, implies_true, List.Pairwise.nil, and_true, List.mem_singleton, forall_eq]
        refine ⟨h.sorted j, trivial, fun a ha => ?_⟩
        obtain ⟨e, he, rfl⟩ := List.mem_map.1 ha
        have := (hr j e he).2
        omega
      · simp only [upd_ne _ _ hj]; exact h.sorted j
    · intro j j' e e' he he' heq
      have key : ∀ j e, e ∈ upd r.lists k (r.lists k ++ [(((r.surfaceNumber + 1 : Nat) : Int) + r.offset, s)]) j →
          e ∈ r.lists j ∨ (j = k ∧ e.1 = ((r.surfaceNumber + 1 : Nat) : Int) + r.offset) := by
        intro j e he
        by_cases hj : j = k
        · subst hj
          rw [upd_same] at he
          rcases List.mem_append.1 he with h | h
          · exact .inl h
          · right; simp at h; simp [h]
        · rw [upd_ne _ _ hj] at he; exact .inl he
      rcases key j e he with h1 | ⟨rfl, h1⟩ <;> rcases key j' e' he' with h2 | ⟨rfl, h2⟩
      · exact h.disj _ _ _ _ h1 h2 heq
      · have := (hr _ _ h1).2; omega
      · have := (hr _ _ h2).2; omega
      · rfl
    · intro j e he
      dsimp only at he
      by_cases hj : j = k
      · subst hj
        rw [upd_same] at he
        rcases List.mem_append.1 he with h | h
        · have := hr j e h; simp only; omega
        · simp at h; subst h; simp only; omega
      · rw [upd_ne _ _ hj] at he
        have := hr j e he; simp only; omega
    · intro j i hl hpos
      simp only [Option.some.injEq, Prod.mk.injEq] at hl
      obtain ⟨rfl, rfl⟩ := hl
      simp only [upd_same, List.length_append, List.length_cons, List.length_nil]
      omega

theorem erase_map_fst {l : List (Int × α)} {i : Nat} {e} (hs : (l.map Prod.fst).Nodup) (hi : l[i]? = some e) :
    (l.map Prod.fst).erase e.1 = (l.eraseIdx i).map Prod.fst := by
  induction l generalizing i with
  | nil => simp at hi
  | cons x l ih =>
    cases i with
    | zero => simp at hi; subst hi; simp
    | succ i =>
      simp only [List.getElem?_cons_succ] at hi
      simp only [List.map_cons, List.nodup_cons] at hs
      have hne : x.1 ≠ e.1 := by
        intro h; apply hs.1; rw [h]; exact List.mem_map.2 ⟨e, List.mem_of_getElem? hi, rfl⟩
      simp only [List.map_cons, List.eraseIdx_cons_succ]
      rw [List.erase_cons_tail (by simpa using hne), ih hs.2 hi]

/-- deletion through a valid cache -/
theorem delLast_spec {r : Reg α} (h : Inv r) {k : Key} {i : Nat} {e} (hi : (r.lists k)[i]? = some e) :
    ∃ r', ({ r with last := some (k, i) } : Reg α).delLast e.1 = .ok r' ∧ Inv r' ∧
      r'.last = some (k, i) ∧ r'.surfaceNumber = r.surfaceNumber ∧ r'.offset = r.offset ∧
      r'.lists = upd r.lists k ((r.lists k).eraseIdx i) := by
  unfold Reg.delLast
  have hlt := (List.getElem?_eq_some_iff.1 hi).1
  have hm : e.1 ∈ r.surfIndex k := by rw [h.tab]; exact List.mem_map.2 ⟨e, List.mem_of_getElem? hi, rfl⟩
  simp only [if_pos hm, if_pos hlt]
  have hnd : ((r.lists k).map Prod.fst).Nodup := (h.sorted k).imp (fun h => ne_of_lt h)
  refine ⟨_, rfl, ⟨?_, ?_, ?_⟩, rfl, rfl, rfl, rfl⟩
  · intro j
    by_cases hj : j = k
    · subst hj; simp only [upd_same]; rw [h.tab, erase_map_fst hnd hi]
    · simp only [upd_ne _ _ hj, h.tab]
  · intro j
    by_cases hj : j = k
    · subst hj
      simp only [upd_same]
      exact (h.sorted j).sublist ((List.eraseIdx_sublist _ _).map _)
    · simp only [upd_ne _ _ hj]; exact h.sorted j
  · have key : ∀ j e', e' ∈ upd r.lists k ((r.lists k).eraseIdx i) j → e' ∈ r.lists j := by
      intro j e' he'
      by_cases hj : j = k
      · subst hj; rw [upd_same] at he'; exact List.mem_of_mem_eraseIdx he'
      · rwa [upd_ne _ _ hj] at he'
    intro j j' a b ha hb hab
    exact h.disj _ _ _ _ (key j a ha) (key j' b hb) hab

end Geouned.Reg
