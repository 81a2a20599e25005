import Verif.SerpFile.Spec
import Verif.McnpFile.CellLemmas
import Verif.McnpFile.SurfLemmas
/-!
# Lemmas for C108
-/
namespace Geouned.SerpFile

open Geouned.McnpFile

/-- whatever follows, the text has these words -/
def Piece (a : List Char) (ws : List (List Char)) : Prop := ∀ t, fileWords (a ++ t) = ws ++ fileWords t

theorem Piece.append {a b : List Char} {u v : List (List Char)} (h1 : Piece a u) (h2 : Piece b v) : Piece (a ++ b) (u ++ v) := by
  intro t
  rw [List.append_assoc, h1, h2, List.append_assoc]

theorem Piece.nil : Piece [] [] := fun _ => rfl

theorem uncomment_plain {a : List Char} (h : '%' ∉ a) (t : List Char) : uncomment false (a ++ t) = a ++ uncomment false t := by
  induction a with
  | nil => rfl
  | cons c a ih =>
    have h1 : c ≠ '%' := fun e => h (e ▸ List.mem_cons_self)
    rw [List.cons_append, uncomment, if_neg h1, ih (fun hm => h (List.mem_cons_of_mem _ hm)), List.cons_append]

theorem uncomment_in {x : List Char} (h : '\n' ∉ x) (t : List Char) : uncomment true (x ++ '\n' :: t) = '\n' :: uncomment false t := by
  induction x with
  | nil => rfl
  | cons c a ih =>
    have h1 : c ≠ '\n' := fun e => h (e ▸ List.mem_cons_self)
    rw [List.cons_append, uncomment, if_neg h1, ih (fun hm => h (List.mem_cons_of_mem _ hm))]

theorem uncomment_nl : ∀ (b : Bool) (a t : List Char), uncomment b (a ++ '\n' :: t) = uncomment b a ++ '\n' :: uncomment false t
  | true, [], t => rfl
  | false, [], t => rfl
  | true, c :: a, t => by
    rw [List.cons_append, uncomment, uncomment]
    split
    · rw [uncomment_nl, List.cons_append]
    · rw [uncomment_nl]
  | false, c :: a, t => by
    rw [List.cons_append, uncomment, uncomment]
    split
    · rw [uncomment_nl]
    · rw [uncomment_nl, List.cons_append]

theorem words_nl (r : List Char) : Wrap.wordsOf ('\n' :: r) = Wrap.wordsOf r := by
  unfold Wrap.wordsOf
  rw [Wrap.wf_ws _ (by decide)]
  rfl

theorem words_nl_mid (a b : List Char) : Wrap.wordsOf (a ++ '\n' :: b) = Wrap.wordsOf a ++ Wrap.wordsOf b := by
  have h1 : a ++ '\n' :: b = (a ++ ['\n']) ++ b := by simp
  rw [h1, Wrap.words_append (a ++ ['\n']) b (by intro c hc; simp at hc; rw [← hc]; decide)]
  congr 1
  exact Wrap.wf_wsTail a ['\n'] (by simp) []

/-- a comment line -/
theorem piece_comment {x : List Char} (h : '\n' ∉ x) : Piece ('%' :: x ++ ['\n']) [] := by
  intro t
  unfold fileWords
  rw [List.append_assoc, List.cons_append, uncomment, if_pos rfl, List.singleton_append, uncomment_in h, words_nl, List.nil_append]

/-- a text without comments that ends with a blank -/
theorem piece_blank {a : List Char} (h : '%' ∉ a) : Piece (a ++ [' ']) (Wrap.wordsOf a) := by
  intro t
  unfold fileWords
  rw [uncomment_plain (by simp [h]), List.append_assoc, List.singleton_append, words_blank_mid]

theorem piece_nl {a : List Char} (h : '%' ∉ a) : Piece (a ++ ['\n']) (Wrap.wordsOf a) := by
  intro t
  unfold fileWords
  rw [uncomment_plain (by simp [h]), List.append_assoc, List.singleton_append, words_nl_mid]

/-- the title -/
theorem piece_title {a : List Char} (h : fileWords a = []) : Piece (a ++ ['\n']) [] := by
  intro t
  unfold fileWords at h ⊢
  rw [List.append_assoc, List.singleton_append, uncomment_nl, words_nl_mid, h]

theorem Piece.flatMap {α : Type} {f : α → List Char} : ∀ {l : List α}, (∀ x ∈ l, Piece (f x) []) → Piece (l.flatMap f) []
  | [], _ => .nil
  | x :: l, h => by
    rw [List.flatMap_cons]
    exact (h x List.mem_cons_self).append (Piece.flatMap (fun y hy => h y (List.mem_cons_of_mem _ hy)))

theorem linesOf_nl {s m : List Char} (hm : m ∈ Wrap.linesOf s) : '\n' ∉ m := by
  intro h
  exact (mem_linesOf hm h).2 rfl

/-- a blank, then comments -/
theorem piece_tab {x : List Char} (h : '\n' ∉ x) : Piece (tab11 ++ '%' :: x ++ ['\n']) [] := by
  have h1 : tab11 ++ '%' :: x ++ ['\n'] = (List.replicate 10 ' ' ++ [' ']) ++ ('%' :: x ++ ['\n']) := by
    simp [tab11, List.replicate]
  rw [h1]
  have := (piece_blank (a := List.replicate 10 ' ') (by decide)).append (piece_comment h)
  have e : Wrap.wordsOf (List.replicate 10 ' ') = [] := by decide
  rwa [e, List.nil_append] at this

theorem piece_percent (s : List Char) : Piece (percentLines s) [] :=
  Piece.flatMap (fun _ hx => piece_tab (linesOf_nl (List.mem_of_mem_filter hx)))

theorem piece_commentFormat (c : Cell) : Piece (commentFormat c) [] := by
  unfold commentFormat
  refine Piece.append (u := []) (v := []) ?_ ?_
  · cases c.matInfo with
    | none => exact .nil
    | some m =>
      dsimp only
      split
      · exact .nil
      · exact piece_percent m
  · split
    · exact .nil
    · exact piece_percent _

theorem piece_commentLine (s : List Char) : Piece (commentLine s) [] := by
  unfold commentLine
  have h1 : Piece (T "% \n") [] := piece_comment (x := [' ']) (by decide)
  refine (h1.append (Piece.flatMap (fun x hx => ?_))).append h1
  have : T "% " ++ x ++ ['\n'] = '%' :: (' ' :: x) ++ ['\n'] := rfl
  rw [this]
  refine piece_comment ?_
  rw [List.mem_cons, not_or]
  exact ⟨by decide, linesOf_nl (List.mem_of_mem_filter hx)⟩

/-! ## a comment begins with a blank -/

theorem percentLines_blank {s : List Char} (h : ∃ x ∈ Wrap.linesOf s, x ≠ []) : ∃ r, percentLines s = ' ' :: r := by
  obtain ⟨x, hx, hne⟩ := h
  have hm : x ∈ (Wrap.linesOf s).filter (fun x => x ≠ []) := List.mem_filter.mpr ⟨hx, by simpa using hne⟩
  unfold percentLines
  cases hl : (Wrap.linesOf s).filter (fun x => x ≠ []) with
  | nil => rw [hl] at hm; cases hm
  | cons y l =>
    rw [List.flatMap_cons]
    exact ⟨_, rfl⟩

theorem lines_some {s : List Char} {x : Char} (hx : x ∈ s) (hn : x ≠ '\n') : ∃ l ∈ Wrap.linesOf s, l ≠ [] := by
  by_contra hno
  have hall : ∀ l ∈ Wrap.linesOf s, l = [] := fun l hl => Classical.byContradiction fun h => hno ⟨l, hl, h⟩
  have h1 : x ∈ s ++ ['\n'] := List.mem_append_left _ hx
  rw [← Wrap.unlines_linesOf] at h1
  unfold Wrap.unlines at h1
  obtain ⟨l, hl, hm⟩ := List.mem_flatMap.mp h1
  rw [hall l hl] at hm
  simp at hm
  exact hn hm

theorem percentLines_or (s : List Char) : percentLines s = [] ∨ ∃ r, percentLines s = ' ' :: r := by
  unfold percentLines
  cases (Wrap.linesOf s).filter (fun x => x ≠ []) with
  | nil => exact Or.inl rfl
  | cons y l =>
    rw [List.flatMap_cons]
    exact Or.inr ⟨_, rfl⟩

theorem strip_some {s : List Char} {x : Char} (hx : x ∈ s) (hw : x.isWhitespace = false) : x ∈ Wrap.strip s := by
  have drop : ∀ l : List Char, x ∈ l → x ∈ l.dropWhile Char.isWhitespace := by
    intro l hl
    induction l with
    | nil => exact hl
    | cons c l ih =>
      rw [List.dropWhile_cons]
      split
      · next hc =>
        rcases List.mem_cons.mp hl with rfl | hl
        · rw [hw] at hc; cases hc
        · exact ih hl
      · exact hl
  unfold Wrap.strip
  simp only [List.mem_reverse]
  exact drop _ (List.mem_reverse.mpr (drop _ hx))

theorem comment_blank {c : Cell} (h : Commented c) : ∃ r, commentFormat c = ' ' :: r := by
  unfold commentFormat
  have h2 : (∃ x ∈ c.comments, x.isWhitespace = false) →
      ∃ r, (if Wrap.strip c.comments = [] then [] else percentLines (Wrap.strip c.comments)) = ' ' :: r := by
    rintro ⟨x, hx, hw⟩
    have h3 := strip_some hx hw
    rw [if_neg (by intro e; rw [e] at h3; cases h3)]
    exact percentLines_blank (lines_some h3 (by rintro rfl; revert hw; decide))
  have key : ∀ a b : List Char, (a = [] ∨ ∃ r, a = ' ' :: r) → ((∃ r, a = ' ' :: r) ∨ ∃ r, b = ' ' :: r) → ∃ r, a ++ b = ' ' :: r := by
    intro a b h1 h2
    rcases h1 with rfl | ⟨r, rfl⟩
    · rcases h2 with ⟨r, hr⟩ | h2
      · cases hr
      · exact h2
    · exact ⟨_, rfl⟩
  refine key _ _ ?_ ?_
  · cases c.matInfo with
    | none => exact Or.inl rfl
    | some m =>
      dsimp only
      split
      · exact Or.inl rfl
      · exact percentLines_or m
  · rcases h with ⟨m, hm, x, hx, hn⟩ | h
    · left
      rw [hm]
      dsimp only
      rw [if_neg (by rintro rfl; cases hx)]
      exact percentLines_blank (lines_some hx hn)
    · exact Or.inr (h2 h)

/-- what is before a comment is not changed by it -/
theorem piece_before {a b r : List Char} (h : '%' ∉ a) (hb : b = ' ' :: r) (hp : Piece b []) : Piece (a ++ b) (Wrap.wordsOf a) := by
  intro t
  unfold Piece at hp
  have h1 := hp t
  unfold fileWords at h1 ⊢
  rw [List.append_assoc, uncomment_plain h]
  subst hb
  rw [List.cons_append, uncomment, if_neg (by decide)] at h1 ⊢
  rw [words_blank_mid, words_space] at *
  rw [h1, List.nil_append]

end Geouned.SerpFile
