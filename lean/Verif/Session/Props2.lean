import Verif.Session.AgainProps
/-!
# C112: a model that meets the hypotheses, and the universe 0
-/
namespace Geouned.Session

open Geouned.McnpFile (T)

theorem supported_known : Known supported := known_iff.mpr fun _ h => h

example := C112_files PhitsFile.fmtP 30 100 (proj labelled) (args .none supported) (good none) true true supported (args_means _) supported_known world _ (ok_world (ok_first labelled (Or.inl rfl)).2.1)

/-- a sphere is missing: all files in front of the first that needs it are there -/
example : ∃ e d, exportCsg PhitsFile.fmtP 30 100 { proj labelled with sphere := none } (args .none [T "openmc_py", T "phits", T "openmc_xml"]) world = .fail e d
    ∧ ∃ pre x post, Kind.order = pre ++ x :: post ∧ Wanted true true [T "openmc_py", T "phits", T "openmc_xml"] x := by
  have h : ∀ o : Outcome, isOk o = false → ∃ e d, o = .fail e d := fun o h => by
    cases o with
    | ok w => cases h
    | fail e d => exact ⟨e, d, rfl⟩
  obtain ⟨e, d, he⟩ := h (exportCsg PhitsFile.fmtP 30 100 { proj labelled with sphere := none } (args .none [T "openmc_py", T "phits", T "openmc_xml"]) world) (by decide +kernel)
  obtain ⟨pre, x, post, h1, h2, _⟩ := C112_failure PhitsFile.fmtP 30 100 { proj labelled with sphere := none } _ (good none) true true _ (args_means _)
    (known_iff.mpr (by decide)) world e d he
  exact ⟨e, d, he, pre, x, post, h1, h2⟩

example : ∃ e, (e = .type ∨ e = .value) ∧ exportCsg PhitsFile.fmtP 30 100 (proj labelled) (args (.int (-1)) supported) world = .fail e world.disk :=
  C112_arguments _ _ _ _ _ _ (by
    rintro ⟨g, cc, su, o, hm, _⟩
    rcases hm.ucard with ⟨h, _⟩ | ⟨n, hn, h, _⟩
    · cases h
    · cases h; omega)

/-- core.py 152-154: "if value = 0 Universe card is not written": the files are those without a universe -/
def C112_zero_statement : Prop :=
  ∀ (f : PhitsFile.Fmt) (r k : Nat) (p : Project) (a b : Args) (g h : Good) (cc su : Bool) (o : List (List Char)) (w wa wb : World) (x : Kind),
    Means a g cc su o → Means b h cc su o → h = { g with uni := none } → g.uni = some 0 → Wanted cc su o x → exportCsg f r k p a w = .ok wa → exportCsg f r k p b w = .ok wb →
    wa.disk (g.name ++ x.suffix) = wb.disk (g.name ++ x.suffix)

/-- **C112, violation.** With `UCARD=0` every cell of the MCNP file has `U=0`. -/
theorem C112_zero_violated : ¬ C112_zero_statement := by
  intro h
  have hd : (worldOf (exportCsg PhitsFile.fmtP 30 100 (proj labelled) (args (.int 0) [T "mcnp"]) world)).disk (T "csg" ++ Kind.suffix .mcnp)
      ≠ (worldOf (exportCsg PhitsFile.fmtP 30 100 (proj labelled) (args .none [T "mcnp"]) world)).disk (T "csg" ++ Kind.suffix .mcnp) := by decide +kernel
  exact hd (h PhitsFile.fmtP 30 100 (proj labelled) (args (.int 0) [T "mcnp"]) (args .none [T "mcnp"]) (good (some 0)) (good none) true true _ world _ _ .mcnp
    ⟨rfl, rfl, Or.inl rfl, rfl, rfl, Or.inr ⟨0, le_refl _, rfl, rfl⟩, rfl, rfl, rfl⟩ (args_means _) rfl rfl ⟨_, rfl, by decide⟩ (ok_world (by decide +kernel)) (ok_world (by decide +kernel)))

end Geouned.Session
