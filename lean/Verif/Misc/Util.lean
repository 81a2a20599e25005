/-!
# Sorting

`list.sort()` of Python on keys that are totally ordered: any correct stable sort gives the same list; insertion sort is
used because it computes inside the kernel.
-/
namespace Geouned

variable {α : Type}

/-- insert before the first element that is not smaller -/
def ordInsert (le : α → α → Bool) (a : α) : List α → List α
  | [] => [a]
  | b :: l => if le a b then a :: b :: l else b :: ordInsert le a l

/-- insertion sort -/
def insSort (le : α → α → Bool) : List α → List α
  | [] => []
  | a :: l => ordInsert le a (insSort le l)

theorem ordInsert_perm (le : α → α → Bool) (a : α) (l : List α) : (ordInsert le a l).Perm (a :: l) := by
  induction l with
  | nil => exact List.Perm.refl _
  | cons b l ih =>
    unfold ordInsert
    split
    · exact List.Perm.refl _
    · exact (List.Perm.cons b ih).trans (List.Perm.swap a b l)

theorem insSort_perm (le : α → α → Bool) (l : List α) : (insSort le l).Perm l := by
  induction l with
  | nil => exact List.Perm.refl _
  | cons a l ih => exact (ordInsert_perm le a _).trans (List.Perm.cons a ih)

theorem ordInsert_pairwise {le : α → α → Bool} (htr : ∀ a b c, le a b = true → le b c = true → le a c = true)
    (htot : ∀ a b, le a b = true ∨ le b a = true) (a : α) (l : List α)
    (h : l.Pairwise fun a b => le a b = true) : (ordInsert le a l).Pairwise fun a b => le a b = true := by
  induction l with
  | nil => simp [ordInsert]
  | cons b l ih =>
    obtain ⟨h1, h2⟩ := List.pairwise_cons.1 h
    unfold ordInsert
    split
    · rename_i hab
      refine List.pairwise_cons.2 ⟨?_, h⟩
      intro x hx
      rcases List.mem_cons.1 hx with rfl | hx
      · exact hab
      · exact htr _ _ _ hab (h1 x hx)
    · rename_i hab
      refine List.pairwise_cons.2 ⟨?_, ih h2⟩
      intro x hx
      rcases List.mem_cons.1 ((ordInsert_perm le a l).mem_iff.1 hx) with rfl | hx
      · exact (htot x b).resolve_left hab
      · exact h1 x hx

theorem insSort_pairwise {le : α → α → Bool} (htr : ∀ a b c, le a b = true → le b c = true → le a c = true)
    (htot : ∀ a b, le a b = true ∨ le b a = true) (l : List α) :
    (insSort le l).Pairwise fun a b => le a b = true := by
  induction l with
  | nil => simp [insSort]
  | cons a l ih => exact ordInsert_pairwise htr htot a _ ih

end Geouned
