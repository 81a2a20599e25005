import Verif.Load.Model
import Verif.CellText.Lemmas3
import Mathlib.Data.List.Forall2
/-!
# Lemmas: the last word of a label
-/
namespace Geouned.Load

open Geouned.CellText

variable {S : Type}

theorem joinWords_eq : ∀ ws : List (List Char), joinWords ws = List.intercalate [' '] ws
  | [] => rfl
  | [w] => by simp [joinWords, List.intercalate]
  | w :: v :: ws => by
    rw [joinWords.eq_3 _ _ (by simp), joinWords_eq (v :: ws)]
    simp [List.intercalate, List.intersperse]

theorem white_of {w : List Char} (h : ' ' ∉ w ∧ '\n' ∉ w) : ∀ c ∈ w, isWhite c = false := by
  intro c hc
  unfold isWhite
  rw [Bool.or_eq_false_iff]
  constructor
  · exact decide_eq_false (fun h' => h.1 (h' ▸ hc))
  · exact decide_eq_false (fun h' => h.2 (h' ▸ hc))

theorem split_words : ∀ (ws : List (List Char)), (∀ w ∈ ws, w ≠ [] ∧ ' ' ∉ w ∧ '\n' ∉ w) → pySplit (joinWords ws) = ws
  | [], _ => rfl
  | [w], h => by
    have := split_word (s := []) (white_of (h w List.mem_cons_self).2) (h w List.mem_cons_self).1 (by simp)
    rw [List.append_nil] at this
    exact this
  | w :: v :: ws, h => by
    rw [joinWords.eq_3 _ _ (by simp)]
    rw [split_word (white_of (h w List.mem_cons_self).2) (h w List.mem_cons_self).1 (by intro c hc; cases hc; decide)]
    rw [show ' ' :: joinWords (v :: ws) = [' '] ++ joinWords (v :: ws) from rfl, split_gap (by decide), split_words (v :: ws) (fun x hx => h x (List.mem_cons_of_mem _ hx))]

theorem join_snoc : ∀ (ws : List (List Char)) (n : List Char), ws ≠ [] → joinWords ws ++ ' ' :: n = joinWords (ws ++ [n])
  | [], _, h => absurd rfl h
  | [w], n, _ => rfl
  | w :: v :: ws, n, _ => by
    have := join_snoc (v :: ws) n (by simp)
    rw [joinWords.eq_3 _ _ (by simp), List.append_assoc, List.cons_append, this]
    rfl

theorem getLabel_word {ws : List (List Char)} {n : List Char} (hne : ws ≠ []) (h : ∀ w ∈ ws ++ [n], w ≠ [] ∧ ' ' ∉ w ∧ '\n' ∉ w) :
    getLabel true (List.intercalate [' '] ws ++ ' ' :: n) = List.intercalate [' '] ws := by
  unfold getLabel
  rw [if_pos rfl, ← joinWords_eq, join_snoc ws n hne, split_words _ h, List.dropLast_concat]

/-- the same run with other labels -/
theorem loadCad_congr (o : Opts) (spl : S → Bool) {es es' : List (Elem S)}
    (h : List.Forall₂ (fun e e' => getLabel true e.label = e'.label ∧ e.parents.map (getLabel true) = e'.parents ∧ e.solids = e'.solids) es es') :
    loadCad { o with delLast := true } spl es = loadCad { o with delLast := false } spl es' := by
  have hfl : es.flatMap (·.solids) = es'.flatMap (·.solids) := by
    induction h with
    | nil => rfl
    | cons h1 _ ih => rw [List.flatMap_cons, List.flatMap_cons, h1.2.2, ih]
  have hfirst : ∀ (l : List S) (i : Nat), firstMetas { o with delLast := true } spl l i = firstMetas { o with delLast := false } spl l i := by
    intro l
    induction l with
    | nil => intro i; rfl
    | cons s l ih => intro i; rw [firstMetas, firstMetas, ih]
  have hattr : ∀ (f : Found) (cm : List Char) (n i p : Nat) (l : List (Meta S)), attrLoop { o with delLast := true } f cm n i p l = attrLoop { o with delLast := false } f cm n i p l := by
    intro f cm n
    induction n with
    | zero => intro i p l; rfl
    | succ n ih =>
      intro i p l
      rw [attrLoop, attrLoop]
      cases l[p]? with
      | none => rfl
      | some m =>
        dsimp only
        rw [show setAll { o with delLast := true } f cm i m = setAll { o with delLast := false } f cm i m from rfl]
        cases setAll { o with delLast := false } f cm i m with
        | error x => rfl
        | ok m' => exact ih _ _ _
  have hloop : ∀ (p : Nat) (l : List (Meta S)), elemLoop { o with delLast := true } es p l = elemLoop { o with delLast := false } es' p l := by
    clear hfl
    induction h with
    | nil => intro p l; rfl
    | @cons e e' es es' h1 _ ih =>
      intro p l
      obtain ⟨a, b, c⟩ := h1
      have hid : ∀ l : List (List Char), l.map (getLabel false) = l := by
        intro l
        induction l with
        | nil => rfl
        | cons x l ih => rw [List.map_cons, ih]; rfl
      have hf : findAll { o with delLast := true } e = findAll { o with delLast := false } e' := by
        unfold findAll
        cases hp : e.parents with
        | nil =>
          rw [hp] at b
          rw [← b]
          rfl
        | cons q qs =>
          rw [hp, List.map_cons] at b
          rw [← b]
          dsimp only
          rw [← a]
          simp only [List.map_cons]
          have hq : ∀ x, getLabel false x = x := fun _ => rfl
          rw [hq, hq, hid]
      have hc : elemComment { o with delLast := true } e = elemComment { o with delLast := false } e' := by
        unfold elemComment commentTree
        dsimp only
        rw [a, ← b, ← List.map_reverse, List.flatMap_map]
        rfl
      rw [elemLoop, elemLoop, c, hf, hc]
      by_cases he : e'.solids = []
      · rw [if_pos he, if_pos he]
        exact ih p l
      · rw [if_neg he, if_neg he, show fuseElem { o with delLast := true } (findAll { o with delLast := false } e') e'.solids.length p l =
            fuseElem { o with delLast := false } (findAll { o with delLast := false } e') e'.solids.length p l from rfl]
        cases fuseElem { o with delLast := false } (findAll { o with delLast := false } e') e'.solids.length p l with
        | error x => rfl
        | ok r =>
          dsimp only
          rw [hattr]
          cases attrLoop { o with delLast := false } (findAll { o with delLast := false } e') (elemComment { o with delLast := false } e') r.2 0 p r.1 with
          | error x => rfl
          | ok l' => exact ih _ _
  unfold loadCad
  rw [hfl, hfirst, hloop]

end Geouned.Load
