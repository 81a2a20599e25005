import Verif.Load.Files
import Mathlib.Tactic.Linarith
import Mathlib.Data.List.Induction
/-!
# Lemmas for several files
-/
namespace Geouned.Load

open Geouned.CellText

theorem objects_flatten {α : Type} : ∀ (fs : List (List α)) (i : Nat), (objects i fs).flatten = List.range' i fs.flatten.length
  | [], i => rfl
  | f :: fs, i => by
    rw [objects, List.flatten_cons, objects_flatten fs, List.flatten_cons, List.length_append, List.range'_append_1]

theorem joinRest_list (ids : Nat → Nat) (new : List Nat) (ms : List (List Nat)) : (joinRest ids new ms).2 = new ++ ms.flatten := by
  induction ms generalizing ids new with
  | nil => simp [joinRest]
  | cons m ms ih => rw [joinRest, ih, List.flatten_cons, List.append_assoc]

theorem setIds_not {ids : Nat → Nat} {s : Nat} : ∀ {rs : List Nat} {r : Nat}, r ∉ rs → setIds ids s rs r = ids r
  | [], r, _ => rfl
  | a :: rs, r, h => by
    rw [setIds, setIds_not (fun h' => h (List.mem_cons_of_mem _ h')), Function.update_of_ne (by rintro rfl; exact h List.mem_cons_self)]

theorem setIds_map : ∀ {rs : List Nat} (ids : Nat → Nat) (s : Nat), rs.Nodup → rs.map (setIds ids s rs) = List.range' s rs.length
  | [], _, _, _ => rfl
  | a :: rs, ids, s, h => by
    obtain ⟨h1, h2⟩ := List.nodup_cons.mp h
    rw [List.map_cons, List.length_cons, List.range'_succ]
    congr 1
    · rw [setIds, setIds_not h1, Function.update_self]
    · exact setIds_map (Function.update ids a s) (s + 1) h2

/-- numbers that go up stay so -/
theorem joinRest_inc (ids : Nat → Nat) (new : List Nat) (ms : List (List Nat)) (hne : new ≠ []) (hn : (new ++ ms.flatten).Nodup) (hi : (new.map ids).Pairwise (· < ·)) :
    ((new ++ ms.flatten).map (joinRest ids new ms).1).Pairwise (· < ·) := by
  induction ms generalizing ids new with
  | nil => simpa [joinRest] using hi
  | cons m ms ih =>
    rw [List.flatten_cons, ← List.append_assoc] at hn ⊢
    rw [joinRest]
    refine ih _ _ (by simp [hne]) hn ?_
    have hn' := (List.nodup_append.mp hn).1
    obtain ⟨n1, n2, n3⟩ := List.nodup_append.mp hn'
    rw [List.map_append, setIds_map _ _ n2]
    have hnew : new.map (setIds ids (ids (new.getLast?.getD 0) + 1) m) = new.map ids := List.map_congr_left (fun r hr => setIds_not (fun h' => n3 r hr r h' rfl))
    rw [hnew, List.pairwise_append]
    refine ⟨hi, List.pairwise_lt_range', ?_⟩
    intro x hx y hy
    obtain ⟨r, hr, rfl⟩ := List.mem_map.mp hx
    have hy := (List.mem_range'_1.mp hy).1
    have hlast : ids r ≤ ids (new.getLast?.getD 0) := by
      rw [List.getLast?_eq_getLast_of_ne_nil hne, Option.getD_some]
      obtain ⟨a, b, hb⟩ : ∃ a b, new = a ++ [b] := ⟨new.dropLast, new.getLast hne, (List.dropLast_append_getLast hne).symm⟩
      subst hb
      rw [List.getLast_append_singleton]
      rw [List.map_append, List.pairwise_append] at hi
      rcases List.mem_append.mp hr with hr | hr
      · exact le_of_lt (hi.2.2 _ (List.mem_map_of_mem hr) _ (by simp))
      · rw [List.mem_singleton.mp hr]
    omega

theorem joinRest_nil (ids : Nat → Nat) (new : List Nat) (ms : List (List Nat)) (h : ∀ m ∈ ms, m = []) : joinRest ids new ms = (ids, new) := by
  induction ms with
  | nil => rfl
  | cons m ms ih => rw [joinRest, h m List.mem_cons_self, List.append_nil, setIds, ih (fun x hx => h x (List.mem_cons_of_mem _ hx))]

/-! ## indices -/

/-- the members of a list at the places that are not in `ks` -/
def keepAt {α : Type} (ks : List Int) (l : List α) : List α := (l.zipIdx.filter (fun p => (p.2 : Int) ∉ ks)).map Prod.fst

theorem keep_far {α : Type} (ks : List Int) : ∀ (B : List α) (n : Nat), (∀ k ∈ ks, k < n) → ((B.zipIdx n).filter (fun p => (p.2 : Int) ∉ ks)).map Prod.fst = B
  | [], _, _ => rfl
  | b :: B, n, h => by
    rw [List.zipIdx_cons, List.filter_cons, if_pos (by
      simp only [decide_eq_true_eq]
      intro h'
      have := h _ h'
      omega), List.map_cons, keep_far ks B (n + 1) (fun k hk => by have := h k hk; push_cast; omega)]

theorem keep_append {α : Type} (ks : List Int) (A B : List α) (h : ∀ k ∈ ks, k < A.length) : keepAt ks (A ++ B) = keepAt ks A ++ B := by
  unfold keepAt
  rw [List.zipIdx_append, List.filter_append, List.map_append, Nat.zero_add, keep_far ks B A.length h]

theorem keep_cons {α : Type} (k : Int) (ks : List Int) (A : List α) (h : A.length ≤ k) : keepAt (k :: ks) A = keepAt ks A := by
  unfold keepAt
  congr 1
  refine List.filter_congr (fun p hp => ?_)
  have hlt : p.2 < A.length := by
    have := List.mem_zipIdx (x := p.1) (i := p.2) hp
    omega
  simp only [List.mem_cons, decide_eq_decide, not_or]
  constructor
  · exact fun h' => h'.2
  · exact fun h' => ⟨by omega, h'⟩

theorem skipLoop_desc {α : Type} : ∀ (ks : List Int) (l : List α), ks.Pairwise (· > ·) → (∀ k ∈ ks, 0 ≤ k ∧ k < l.length) → skipLoop ks l = .ok (keepAt ks l)
  | [], l, _, _ => by
    rw [skipLoop]
    unfold keepAt
    rw [List.filter_eq_self.mpr (by simp), List.zipIdx_map_fst]
  | k :: ks, l, hp, hr => by
    obtain ⟨h0, h1⟩ := hr k List.mem_cons_self
    obtain ⟨p1, p2⟩ := List.pairwise_cons.mp hp
    have hk : (k.toNat : Int) = k := Int.toNat_of_nonneg h0
    have hlt : k.toNat < l.length := by omega
    rw [skipLoop]
    unfold delAt
    rw [if_pos h0, if_pos h1]
    dsimp only
    have hA : (l.take k.toNat).length = k.toNat := by rw [List.length_take]; omega
    have he : l.eraseIdx k.toNat = l.take k.toNat ++ l.drop (k.toNat + 1) := List.eraseIdx_eq_take_drop_succ l _
    have hl : l = l.take k.toNat ++ l[k.toNat] :: l.drop (k.toNat + 1) := by rw [List.getElem_cons_drop, List.take_append_drop]
    rw [skipLoop_desc ks _ p2 (fun x hx => by
      have a := p1 x hx
      have b := (hr x (List.mem_cons_of_mem _ hx)).1
      rw [List.length_eraseIdx_of_lt hlt]
      refine ⟨b, ?_⟩
      omega), he, keep_append ks _ _ (fun x hx => by have := p1 x hx; rw [hA]; omega)]
    congr 1
    conv_rhs => rw [hl]
    have hbelow : ∀ x ∈ k :: ks, x < ((l.take k.toNat ++ [l[k.toNat]]).length : Int) := by
      intro x hx
      rw [List.length_append, hA, List.length_singleton]
      push_cast
      rcases List.mem_cons.mp hx with rfl | hx
      · omega
      · have := p1 x hx
        omega
    rw [show l.take k.toNat ++ l[k.toNat] :: l.drop (k.toNat + 1) = (l.take k.toNat ++ [l[k.toNat]]) ++ l.drop (k.toNat + 1) by simp, keep_append (k :: ks) _ _ hbelow]
    congr 1
    unfold keepAt
    rw [List.zipIdx_append, List.filter_append, List.map_append, Nat.zero_add, hA]
    have hlast : (([l[k.toNat]].zipIdx k.toNat).filter (fun p => (p.2 : Int) ∉ k :: ks)) = [] := by
      simp [hk]
    rw [hlast, List.map_nil, List.append_nil]
    have := keep_cons k ks (l.take k.toNat) (by rw [hA]; omega)
    unfold keepAt at this
    exact this.symm

theorem keep_perm {α : Type} {ks ks' : List Int} (h : ks.Perm ks') (l : List α) : keepAt ks l = keepAt ks' l := by
  unfold keepAt
  congr 1
  exact List.filter_congr (fun p _ => by simp only [h.mem_iff])

theorem skipSolids_keep {α : Type} (ks : List Int) (l : List α) (hn : ks.Nodup) (hr : ∀ k ∈ ks, 0 ≤ k ∧ k < l.length) : skipSolids ks l = .ok (keepAt ks l) := by
  unfold skipSolids
  have hp := List.perm_insertionSort (· ≥ ·) ks
  have hs : (ks.insertionSort (· ≥ ·)).Pairwise (· ≥ ·) := List.pairwise_insertionSort (· ≥ ·) ks
  have hnd : (ks.insertionSort (· ≥ ·)).Nodup := hp.nodup_iff.mpr hn
  rw [skipLoop_desc _ l (hs.imp₂ (fun a b h1 h2 => lt_of_le_of_ne h1 (Ne.symm h2)) hnd) (fun k hk => hr k (hp.mem_iff.mp hk)), keep_perm hp]

theorem keep_range (ks : List Int) (n : Nat) : keepAt ks (List.range n) = (List.range n).filter (fun i : Nat => decide ((i : Int) ∉ ks)) := by
  unfold keepAt
  have : (List.range n).zipIdx = (List.range n).map (fun i => (i, i)) := by
    refine List.ext_getElem (by simp) (fun i h1 h2 => by simp)
  rw [this, List.filter_map, List.map_map]
  simp [Function.comp_def]

theorem removeNone_filter (e : Nat → Bool) : ∀ (A B : List Nat), (A ++ B).Nodup → removeNone e A.length (A ++ B) = A.filter (fun r => !e r) ++ B := by
  intro A
  induction A using List.reverseRecOn with
  | nil => intro B _; simp [removeNone]
  | append_singleton A a ih =>
    intro B hn
    rw [List.length_append, List.length_singleton, removeNone]
    have hget : (A ++ [a] ++ B)[A.length]? = some a := by simp
    rw [hget]
    dsimp only
    have hA : a ∉ A := by
      intro h
      rw [List.append_assoc, List.nodup_append] at hn
      exact hn.2.2 a h a (by simp) rfl
    rw [List.filter_append]
    by_cases he : e a = true
    · rw [if_pos he, List.append_assoc, List.erase_append_right _ hA, List.singleton_append, List.erase_cons_head]
      rw [ih B (by rw [List.append_assoc] at hn; exact hn.sublist (by simp)), List.filter_cons_of_neg (by simp [he]), List.filter_nil, List.append_nil]
    · rw [if_neg he, List.append_assoc, ih ([a] ++ B) (by rw [← List.append_assoc]; exact hn), List.filter_cons_of_pos (by simp [he]), List.filter_nil, List.append_assoc]

end Geouned.Load
