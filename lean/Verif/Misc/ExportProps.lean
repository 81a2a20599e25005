import Verif.Misc.Export
/-!
# C35: unsupported output formats are rejected before writing
-/
namespace Geouned.Export

/-! ## Specification -/

/-- the file of each format (documentation of `export_csg`) -/
def fileOf (name : String) : String → Option String
  | "mcnp" => some (name ++ ".mcnp")
  | "openmc_xml" => some (name ++ ".xml")
  | "openmc_py" => some (name ++ ".py")
  | "serpent" => some (name ++ ".serp")
  | "phits" => some (name ++ ".inp")
  | _ => none

/-! ## Theorems -/

/-- C35: with any format that is not one of the five, the call raises `ValueError` and no file is touched: whatever the other
formats, options, and failures of the writers. -/
theorem C35_reject (fails : String → Bool) (a : Args) (f : String) (hf : f ∈ a.formats)
    (hu : f ∉ ["mcnp", "openmc_xml", "openmc_py", "serpent", "phits"]) :
    writeGeometry fails a = ⟨[], some .valueError⟩ := by
  unfold writeGeometry
  rw [if_neg]
  rw [List.all_eq_true]
  intro h
  have := h f hf
  simp only [List.contains_iff_mem] at this
  exact hu this

theorem append_ne {n a b : String} (h : a ≠ b) : n ++ a ≠ n ++ b := by
  intro e
  apply h
  have := congrArg String.toList e
  simp only [String.toList_append] at this
  exact String.toList_injective (List.append_cancel_left this)

/-- C35: with formats among the five, the files written are exactly those of the formats asked (each once, however often it is
listed), plus the comment and summary files if asked. -/
theorem C35_files (a : Args) (hs : ∀ f ∈ a.formats, f ∈ ["mcnp", "openmc_xml", "openmc_py", "serpent", "phits"])
    (hv : a.voidGen = true → a.sphere = true) :
    let r := writeGeometry (fun _ => false) a
    r.exc = none ∧ r.files.Nodup ∧
    ∀ p, p ∈ r.files ↔ (∃ f ∈ a.formats, fileOf a.name f = some p) ∨ (a.comments = true ∧ p = a.name ++ "_comments.txt") ∨
      (a.summary = true ∧ p = a.name ++ "_summary.txt") := by
  have hall : a.formats.all supported.contains = true := by
    rw [List.all_eq_true]
    intro f hf
    simp only [List.contains_iff_mem]
    exact hs f hf
  have hno : (a.voidGen && !a.sphere) = false := by
    cases h : a.voidGen with
    | false => rfl
    | true => simp [hv h]
  have key : ∀ p, (∃ f ∈ a.formats, fileOf a.name f = some p) ↔
      ("mcnp" ∈ a.formats ∧ p = a.name ++ ".mcnp") ∨ ("openmc_xml" ∈ a.formats ∧ p = a.name ++ ".xml") ∨
      ("openmc_py" ∈ a.formats ∧ p = a.name ++ ".py") ∨ ("serpent" ∈ a.formats ∧ p = a.name ++ ".serp") ∨
      ("phits" ∈ a.formats ∧ p = a.name ++ ".inp") := by
    intro p
    constructor
    · rintro ⟨f, hf, e⟩
      have := hs f hf
      simp only [List.mem_cons, List.not_mem_nil, or_false] at this
      rcases this with rfl | rfl | rfl | rfl | rfl <;> simp [fileOf] at e <;> subst e <;> simp [hf]
    · rintro (⟨h, rfl⟩ | ⟨h, rfl⟩ | ⟨h, rfl⟩ | ⟨h, rfl⟩ | ⟨h, rfl⟩)
      · exact ⟨_, h, rfl⟩
      · exact ⟨_, h, rfl⟩
      · exact ⟨_, h, rfl⟩
      · exact ⟨_, h, rfl⟩
      · exact ⟨_, h, rfl⟩
  dsimp only
  have e : writeGeometry (fun _ => false) a =
      ⟨(if a.comments then [a.name ++ "_comments.txt"] else []) ++ (if a.summary then [a.name ++ "_summary.txt"] else []) ++
       (if a.formats.contains "mcnp" then [a.name ++ ".mcnp"] else []) ++
       (if a.formats.contains "openmc_xml" then [a.name ++ ".xml"] else []) ++
       (if a.formats.contains "openmc_py" then [a.name ++ ".py"] else []) ++
       (if a.formats.contains "serpent" then [a.name ++ ".serp"] else []) ++
       (if a.formats.contains "phits" then [a.name ++ ".inp"] else []), none⟩ := by
    unfold writeGeometry
    rw [if_pos hall]
    unfold writeAll
    generalize a.comments = b1
    generalize a.summary = b2
    generalize a.formats.contains "mcnp" = b3
    generalize a.formats.contains "openmc_xml" = b4
    generalize a.formats.contains "openmc_py" = b5
    generalize a.formats.contains "serpent" = b6
    generalize a.formats.contains "phits" = b7
    cases b1 <;> cases b2 <;> cases b3 <;> cases b4 <;> cases b5 <;> cases b6 <;> cases b7 <;>
      simp [step, put, outSphere, hno]
  rw [e]
  refine ⟨rfl, ?_, ?_⟩
  · dsimp only
    have n : ([a.name ++ "_comments.txt"] ++ [a.name ++ "_summary.txt"] ++ [a.name ++ ".mcnp"] ++ [a.name ++ ".xml"] ++
        [a.name ++ ".py"] ++ [a.name ++ ".serp"] ++ [a.name ++ ".inp"]).Nodup := by
      simp only [List.singleton_append, List.cons_append, List.nil_append, List.nodup_cons, List.mem_cons, List.not_mem_nil,
        or_false, not_or, not_false_iff, List.nodup_nil, and_true]
      refine ⟨⟨?_, ?_, ?_, ?_, ?_, ?_⟩, ⟨?_, ?_, ?_, ?_, ?_⟩, ⟨?_, ?_, ?_, ?_⟩, ⟨?_, ?_, ?_⟩, ⟨?_, ?_⟩, ?_⟩ <;>
        exact append_ne (by decide)
    refine List.Nodup.sublist ?_ n
    have sub : ∀ (b : Bool) (x : String), List.Sublist (if b then [x] else []) [x] := by
      intro b x; cases b <;> simp
    exact (((((((sub _ _).append (sub _ _)).append (sub _ _)).append (sub _ _)).append (sub _ _)).append (sub _ _)).append
      (sub _ _))
  · intro p
    rw [key]
    have m : ∀ (b : Bool) (x : String), p ∈ (if b then [x] else []) ↔ b = true ∧ p = x := by
      intro b x; cases b <;> simp
    simp only [List.mem_append, m]
    simp only [List.contains_iff_mem]
    generalize (a.comments = true ∧ p = a.name ++ "_comments.txt") = q1
    generalize (a.summary = true ∧ p = a.name ++ "_summary.txt") = q2
    generalize ("mcnp" ∈ a.formats ∧ p = a.name ++ ".mcnp") = q3
    generalize ("openmc_xml" ∈ a.formats ∧ p = a.name ++ ".xml") = q4
    generalize ("openmc_py" ∈ a.formats ∧ p = a.name ++ ".py") = q5
    generalize ("serpent" ∈ a.formats ∧ p = a.name ++ ".serp") = q6
    generalize ("phits" ∈ a.formats ∧ p = a.name ++ ".inp") = q7
    clear e m key hno hall hv hs
    grind

/-- non-vacuity: two formats -/
example : writeGeometry (fun _ => false) ⟨"csg", ["phits", "mcnp", "mcnp"], false, true, true, true⟩ =
    ⟨["csg_summary.txt", "csg.mcnp", "csg.inp"], none⟩ := by decide

/-- non-vacuity: one bad name among good ones -/
example : writeGeometry (fun _ => false) ⟨"csg", ["mcnp", "MCNP"], true, true, true, true⟩ = ⟨[], some .valueError⟩ := by decide

end Geouned.Export
