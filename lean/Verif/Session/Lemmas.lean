import Verif.Session.Spec
/-!
# Lemmas for C111 and C112
-/
namespace Geouned.Session

open Geouned.McnpFile (T)

instance (p : Project) : Decidable (NoSphere p) := by unfold NoSphere; infer_instance

instance (x : Kind) : Decidable x.usesSphere := by cases x <;> unfold Kind.usesSphere <;> infer_instance

instance (cc su : Bool) (o : List (List Char)) (x : Kind) : Decidable (Wanted cc su o x) :=
  match x with
  | .comments => inferInstanceAs (Decidable (_ = true))
  | .summary => inferInstanceAs (Decidable (_ = true))
  | .mcnp => decidable_of_iff (T "mcnp" ∈ o) ⟨fun h => ⟨_, rfl, h⟩, fun ⟨_, h1, h2⟩ => by cases h1; exact h2⟩
  | .xml => decidable_of_iff (T "openmc_xml" ∈ o) ⟨fun h => ⟨_, rfl, h⟩, fun ⟨_, h1, h2⟩ => by cases h1; exact h2⟩
  | .py => decidable_of_iff (T "openmc_py" ∈ o) ⟨fun h => ⟨_, rfl, h⟩, fun ⟨_, h1, h2⟩ => by cases h1; exact h2⟩
  | .serpent => decidable_of_iff (T "serpent" ∈ o) ⟨fun h => ⟨_, rfl, h⟩, fun ⟨_, h1, h2⟩ => by cases h1; exact h2⟩
  | .phits => decidable_of_iff (T "phits" ∈ o) ⟨fun h => ⟨_, rfl, h⟩, fun ⟨_, h1, h2⟩ => by cases h1; exact h2⟩

/-- the cells after a file of this kind -/
def after (f : PhitsFile.Fmt) (r k : Nat) (p : Project) (g : Good) (cs : List PhitsFile.Cell) : Kind → List PhitsFile.Cell
  | .phits =>
    match PhitsFile.writePhits f r k (phitsInput p g cs) with
    | .ok (_, cs') => cs'
    | .error _ => cs
  | _ => cs

/-- the statement for one kind of file -/
def step (f : PhitsFile.Fmt) (r k : Nat) (p : Project) (g : Good) (cc su : Bool) (o : List (List Char)) (x : Kind) (w : World) : Outcome :=
  if Wanted cc su o x then
    if x.usesSphere ∧ NoSphere p then .fail (.py .indexError) w.disk
    else
      match content f r k p g w.cells x with
      | .error e => .fail e (put w.disk (g.name ++ x.suffix) .broken)
      | .ok s => .ok ⟨put w.disk (g.name ++ x.suffix) (.text s), after f r k p g w.cells x⟩
  else .ok w

def run (f : PhitsFile.Fmt) (r k : Nat) (p : Project) (g : Good) (cc su : Bool) (o : List (List Char)) : List Kind → World → Outcome
  | [], w => .ok w
  | x :: xs, w => (step f r k p g cc su o x w).next (run f r k p g cc su o xs)

theorem next_next (o : Outcome) (f h : World → Outcome) : (o.next f).next h = o.next (fun w => (f w).next h) := by
  cases o <;> rfl

theorem next_ok (o : Outcome) : o.next (fun w => .ok w) = o := by cases o <;> rfl

theorem wanted_iff {cc su : Bool} {o : List (List Char)} {x : Kind} {t : List Char} (h : x.format = some t) : Wanted cc su o x ↔ t ∈ o := by
  cases x <;> simp_all [Kind.format, Wanted]

theorem step_write {f : PhitsFile.Fmt} {r k : Nat} {p : Project} {g : Good} {cc su : Bool} {o : List (List Char)} {x : Kind} {w : World} {m : M (List Char)}
    (hs : ¬ x.usesSphere) (hc : content f r k p g w.cells x = m.mapError .py) (ha : after f r k p g w.cells x = w.cells) :
    step f r k p g cc su o x w = if Wanted cc su o x then write (g.name ++ x.suffix) m w else .ok w := by
  unfold step
  rw [hc, ha]
  by_cases h : Wanted cc su o x
  · rw [if_pos h, if_pos h, if_neg (fun h => hs h.1)]
    cases m <;> rfl
  · rw [if_neg h, if_neg h]

theorem step_sphere {f : PhitsFile.Fmt} {r k : Nat} {p : Project} {g : Good} {cc su : Bool} {o : List (List Char)} {x : Kind} {w : World} {m : M (List Char)}
    (hs : x.usesSphere) (hc : content f r k p g w.cells x = m.mapError .py) (ha : after f r k p g w.cells x = w.cells) :
    step f r k p g cc su o x w = if Wanted cc su o x then withSphere p w (write (g.name ++ x.suffix) m w) else .ok w := by
  unfold step withSphere
  rw [hc, ha]
  by_cases h : Wanted cc su o x
  · rw [if_pos h, if_pos h]
    by_cases hn : NoSphere p
    · rw [if_pos ⟨hs, hn⟩, if_pos (by simpa [NoSphere] using hn)]
    · rw [if_neg (fun h => hn h.2), if_neg (by simpa [NoSphere] using hn)]
      cases m <;> rfl
  · rw [if_neg h, if_neg h]

theorem step_phits {f : PhitsFile.Fmt} {r k : Nat} {p : Project} {g : Good} {cc su : Bool} {o : List (List Char)} {w : World} :
    step f r k p g cc su o .phits w = if Wanted cc su o .phits then withSphere p w (writePhits f r k p g w) else .ok w := by
  unfold step withSphere
  by_cases h : Wanted cc su o .phits
  · rw [if_pos h, if_pos h]
    by_cases hn : NoSphere p
    · rw [if_pos ⟨trivial, hn⟩, if_pos (by simpa [NoSphere] using hn)]
    · rw [if_neg (fun h => hn h.2), if_neg (by simpa [NoSphere] using hn)]
      unfold content after writePhits
      rcases PhitsFile.writePhits f r k (phitsInput p g w.cells) with (_ | e) | ⟨s, cs⟩ <;> rfl
  · rw [if_neg h, if_neg h]

theorem known_iff {o : List (List Char)} : Known o ↔ ∀ x ∈ o, x ∈ supported := by
  unfold Known
  refine forall_congr' fun x => forall_congr' fun _ => ⟨?_, ?_⟩
  · rintro ⟨y, hy⟩
    cases y <;> simp only [Kind.format, Option.some.injEq, reduceCtorEq] at hy <;> subst hy <;> unfold supported <;> simp only [List.mem_cons, true_or, or_true]
  · intro h
    unfold supported at h
    simp only [List.mem_cons, List.not_mem_nil, or_false] at h
    rcases h with rfl | rfl | rfl | rfl | rfl
    exacts [⟨.mcnp, rfl⟩, ⟨.xml, rfl⟩, ⟨.py, rfl⟩, ⟨.serpent, rfl⟩, ⟨.phits, rfl⟩]

theorem write_eq_run {f : PhitsFile.Fmt} {r k : Nat} {p : Project} {g : Good} {cc su : Bool} {o : List (List Char)} {w : World} (h : Known o) :
    writeGeometry f r k p g cc su o w = run f r k p g cc su o Kind.order w := by
  unfold writeGeometry
  rw [if_neg (by
    rw [known_iff] at h
    simpa using h)]
  simp only [next_next, Kind.order, run, next_ok]
  show (fun w => _) w = _
  have e1 : ∀ w, (if cc = true then write (g.name ++ T "_comments.txt") (.ok (commentsText w.cells)) w else .ok w) = step f r k p g cc su o .comments w := fun w =>
    (step_write (x := .comments) (m := .ok (commentsText w.cells)) (fun h => h) rfl rfl).symm
  have e2 : ∀ w, (if su = true then write (g.name ++ T "_summary.txt") (summaryText f w.cells) w else .ok w) = step f r k p g cc su o .summary w := fun w =>
    (step_write (x := .summary) (fun h => h) rfl rfl).symm
  have e3 : ∀ w, (if T "mcnp" ∈ o then withSphere p w (write (g.name ++ T ".mcnp") (McnpFile.writeInput f.toFmt r k (mcnpInput p g w.cells)) w) else .ok w)
      = step f r k p g cc su o .mcnp w := fun w => by
    rw [step_sphere (x := .mcnp) trivial rfl rfl]
    simp only [wanted_iff (x := .mcnp) rfl]; rfl
  have e4 : ∀ w, (if T "openmc_xml" ∈ o then write (g.name ++ T ".xml") (OmcFile.writeXml r (w.cells.map omcCell) p.xmlSurfs) w else .ok w)
      = step f r k p g cc su o .xml w := fun w => by
    rw [step_write (x := .xml) (fun h => h) rfl rfl]
    simp only [wanted_iff (x := .xml) rfl]; rfl
  have e5 : ∀ w, (if T "openmc_py" ∈ o then write (g.name ++ T ".py") (OmcFile.writePy r (w.cells.map omcCell) p.pySurfs) w else .ok w)
      = step f r k p g cc su o .py w := fun w => by
    rw [step_write (x := .py) (fun h => h) rfl rfl]
    simp only [wanted_iff (x := .py) rfl]; rfl
  have e6 : ∀ w, (if T "serpent" ∈ o then withSphere p w (write (g.name ++ T ".serp") (SerpFile.writeInput r k (serpInput p g w.cells)) w) else .ok w)
      = step f r k p g cc su o .serpent w := fun w => by
    rw [step_sphere (x := .serpent) trivial rfl rfl]
    simp only [wanted_iff (x := .serpent) rfl]; rfl
  have e7 : ∀ w, (if T "phits" ∈ o then withSphere p w (writePhits f r k p g w) else .ok w) = step f r k p g cc su o .phits w := fun w => by
    rw [step_phits]
    simp only [wanted_iff (x := .phits) rfl]
  simp only [e1, e2, e3, e4, e5, e6, e7]
  rfl

end Geouned.Session
