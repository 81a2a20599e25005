import Verif.Session.Lemmas2
/-!
# C112: an export writes exactly the files that are asked for
-/
namespace Geouned.Session

open Geouned.McnpFile (T)

section
variable (f : PhitsFile.Fmt) (r k : Nat) (p : Project)

/-- **C112.** Arguments that are not as documented (wrong type, negative `UCARD`, a format that is not supported) raise TypeError or ValueError before anything is written. -/
theorem C112_arguments (a : Args) (w : World) (h : ¬ ∃ g cc su o, Means a g cc su o ∧ Known o) :
    ∃ e, (e = .type ∨ e = .value) ∧ exportCsg f r k p a w = .fail e w.disk := by
  unfold exportCsg
  cases hc : check a with
  | error e => exact ⟨e, check_fail hc, rfl⟩
  | ok q =>
    obtain ⟨g, cc, su, o⟩ := q
    refine ⟨.value, Or.inr rfl, ?_⟩
    show writeGeometry f r k p g cc su o w = _
    unfold writeGeometry
    rw [if_pos]
    rw [List.any_eq_true]
    rcases check_inv hc with hm | ⟨s, hs, _, rfl⟩
    · by_contra hne
      refine h ⟨g, cc, su, o, hm, known_iff.mpr fun x hx => ?_⟩
      by_contra hx'
      exact hne ⟨x, hx, by simpa using hx'⟩
    · cases s with
      | nil => exact absurd rfl hs
      | cons c s =>
        refine ⟨[c], by simp, ?_⟩
        have : [c] ∉ supported := by
          intro hm
          unfold supported at hm
          simp only [List.mem_cons, List.not_mem_nil, or_false] at hm
          rcases hm with hm | hm | hm | hm | hm
          all_goals
            have hl := congrArg List.length hm
            revert hl
            simp [T]
        simpa using this

/-- **C112.** In particular, a single format given as a text instead of a sequence is refused, whatever it is. -/
theorem C112_single (a : Args) (w : World) (s : List Char) (hs : s ≠ []) (h : a.outFormat = .str s) :
    ∃ e, (e = .type ∨ e = .value) ∧ exportCsg f r k p a w = .fail e w.disk := by
  refine C112_arguments f r k p a w ?_
  rintro ⟨g, cc, su, o, hm, _⟩
  rcases hm.outFormat with h' | ⟨h', _⟩
  · rw [h] at h'; cases h'
  · rw [h] at h'; cases h'; exact hs rfl

theorem export_run {a : Args} {g : Good} {cc su : Bool} {o : List (List Char)} (hm : Means a g cc su o) (hk : Known o) (w : World) :
    exportCsg f r k p a w = run f r k p g cc su o Kind.order w := by
  unfold exportCsg
  rw [check_ok hm]
  exact write_eq_run hk

/-- **C112.** An export that ends has written exactly the files that were asked for: each with the text that its writer gives for the cells as they were before the export,
whatever else was asked for; all other files are as they were. -/
theorem C112_files (a : Args) (g : Good) (cc su : Bool) (o : List (List Char)) (hm : Means a g cc su o) (hk : Known o) (w w' : World) (h : exportCsg f r k p a w = .ok w') :
    (∀ x, Wanted cc su o x → ∃ s, Gives f r k p g w.cells x s ∧ w'.disk (g.name ++ x.suffix) = some (.text s))
      ∧ ∀ n, (∀ x, Wanted cc su o x → n ≠ g.name ++ x.suffix) → w'.disk n = w.disk n := by
  rw [export_run f r k p hm hk] at h
  obtain ⟨h1, h2, _⟩ := run_ok (by decide) (by decide) h
  exact ⟨fun x hx => h1 x (by cases x <;> decide) hx, fun n hn => h2 n (fun x _ => hn x)⟩

/-- **C112.** The export ends if every file that is asked for can be written. -/
theorem C112_ends (a : Args) (g : Good) (cc su : Bool) (o : List (List Char)) (hm : Means a g cc su o) (hk : Known o) (w : World) :
    (∃ w', exportCsg f r k p a w = .ok w') ↔ ∀ x, Wanted cc su o x → ∃ s, Gives f r k p g w.cells x s := by
  constructor
  · rintro ⟨w', h⟩ x hx
    obtain ⟨s, hs, _⟩ := (C112_files f r k p a g cc su o hm hk w w' h).1 x hx
    exact ⟨s, hs⟩
  · intro h
    rw [export_run f r k p hm hk]
    exact run_total (by decide) (fun x _ => h x)

/-- **C112.** If an export fails, it is at one of the files asked for: those before it (in the order of `Kind.order`) are complete, those after it and all other files are untouched. -/
theorem C112_failure (a : Args) (g : Good) (cc su : Bool) (o : List (List Char)) (hm : Means a g cc su o) (hk : Known o) (w : World) (e : Fail) (d : Disk)
    (h : exportCsg f r k p a w = .fail e d) :
    ∃ pre x post, Kind.order = pre ++ x :: post ∧ Wanted cc su o x ∧ Raises f r k p g w.cells x e
      ∧ (∀ y ∈ pre, Wanted cc su o y → ∃ s, Gives f r k p g w.cells y s ∧ d (g.name ++ y.suffix) = some (.text s))
      ∧ (d (g.name ++ x.suffix) = w.disk (g.name ++ x.suffix) ∨ d (g.name ++ x.suffix) = some .broken)
      ∧ ∀ n, (∀ y ∈ pre ++ [x], Wanted cc su o y → n ≠ g.name ++ y.suffix) → d n = w.disk n := by
  rw [export_run f r k p hm hk] at h
  exact run_fail (by decide) (by decide) h

theorem gives_unique {f : PhitsFile.Fmt} {r k : Nat} {p : Project} {g : Good} {cs : List PhitsFile.Cell} {x : Kind} {s t : List Char} (h1 : Gives f r k p g cs x s)
    (h2 : Gives f r k p g cs x t) : s = t := by
  have h := h1.2.symm.trans h2.2
  exact Except.ok.inj h

/-- **C112.** A file does not depend on which other formats are asked for, nor on their order or repetition. -/
theorem C112_independent (a b : Args) (g : Good) (cc su cc' su' : Bool) (o o' : List (List Char)) (ha : Means a g cc su o) (hb : Means b g cc' su' o') (hk : Known o) (hk' : Known o')
    (w wa wb : World) (h1 : exportCsg f r k p a w = .ok wa) (h2 : exportCsg f r k p b w = .ok wb) (x : Kind) (hx : Wanted cc su o x) (hx' : Wanted cc' su' o' x) :
    wa.disk (g.name ++ x.suffix) = wb.disk (g.name ++ x.suffix) := by
  obtain ⟨s, hs, es⟩ := (C112_files f r k p a g cc su o ha hk w wa h1).1 x hx
  obtain ⟨t, ht, et⟩ := (C112_files f r k p b g cc' su' o' hb hk' w wb h2).1 x hx'
  rw [es, et, gives_unique hs ht]
end

end Geouned.Session
