import Verif.RCore.CliModel
import Verif.Rev.SelectProps
import Mathlib.Data.List.Perm.Basic
/-!
# C131: a configuration file of `geouned_csgtocad` runs the conversion it says
-/
namespace Geouned.RCli
open Geouned.Rev

theorem lookup_some_mem {α : Type} : ∀ (l : List (String × α)) (k : String), k ∈ l.map Prod.fst ↔ (l.lookup k).isSome := by
  intro l k
  induction l with
  | nil => simp
  | cons p l ih =>
    obtain ⟨a, v⟩ := p
    simp only [List.map_cons, List.mem_cons, List.lookup_cons]
    by_cases h : k = a
    · simp [h]
    · simp [h, beq_false_of_ne h, ih]

theorem kwargs_gives {s : Sect} {args : List (String × Val)} (h : Gives s args) (params : List String) (hp : ∀ k, (args.lookup k).isSome → k ∈ params) :
    ∃ a, kwargs params s = .ok a ∧ ∀ k, a k = args.lookup k := by
  obtain ⟨kw, rfl, hk⟩ := h
  refine ⟨fun k => kw.lookup k, ?_, hk⟩
  rw [kwargs, if_pos]
  rw [List.all_eq_true]
  intro p hp'
  rw [List.contains_iff_mem]
  exact hp _ (by rw [← hk, ← lookup_some_mem]; exact List.mem_map_of_mem hp')

theorem exec_ok (api : List Act → Act → Bool) : ∀ (l : List Act) (done : List Act), (∀ d a, api d a = true) → exec api (l.map .ok) done = (done ++ l, none) := by
  intro l
  induction l with
  | nil => intro done _; simp [exec]
  | cons a l ih =>
    intro done h
    simp only [List.map_cons, exec, h, if_true]
    rw [ih _ h]; simp

theorem one_lookup {k0 k : String} {v : Val} (h : (([(k0, v)] : List (String × Val)).lookup k).isSome) : k = k0 := by
  rw [← lookup_some_mem] at h; simpa using h

theorem two_lookup {k1 k2 k : String} {v w : Val} (h : (([(k1, v), (k2, w)] : List (String × Val)).lookup k).isSome) : k = k1 ∨ k = k2 := by
  rw [← lookup_some_mem] at h; simpa using h

theorem steps_asks {f : File} {inp fmt out : String} {cells mats : List Call} (h : Asks f inp fmt cells mats out) :
    steps f = ([Act.read inp fmt] ++ cells.map Act.filter ++ mats.map Act.filter ++ [Act.build] ++ [Act.write out]).map Except.ok := by
  obtain ⟨⟨s, h1, h2⟩, hf, hc, hm, ho⟩ := h
  have e1 : readPart f = .ok (.read inp fmt) := by
    obtain ⟨a, ha, hk⟩ := kwargs_gives h2 ["input_filename", "csg_format"] (fun k hk => by simpa using two_lookup hk)
    rw [readPart, h1]
    simp only [readStep, ha, hk]
    exact if_pos hf
  have e2 : cellPart f = (cells.map Act.filter).map Except.ok := by
    rcases hc with ⟨g1, rfl⟩ | ⟨s, t, ll, types, lists, g1, rfl, g2, ht, hl⟩
    · rw [cellPart, g1]; rfl
    · rw [cellPart, g1]
      rcases ht with ⟨rfl, rfl⟩ | rfl <;> rcases hl with ⟨rfl, rfl | rfl⟩ | ⟨v, rfl, rfl⟩
      all_goals
        obtain ⟨a, ha, hk⟩ := kwargs_gives g2 ["type", "cells"] (fun k hk => by
          rw [← lookup_some_mem] at hk
          simp at hk
          try simp [hk])
        simp only [cellStep, ha, hk]; rfl
  have e3 : matPart f = (mats.map Act.filter).map Except.ok := by
    rcases hm with ⟨g1, rfl⟩ | ⟨s, t, ll, types, lists, g1, rfl, g2, ht, hl⟩
    · rw [matPart, g1]; rfl
    · rw [matPart, g1]
      rcases ht with ⟨rfl, rfl⟩ | rfl <;> rcases hl with ⟨rfl, rfl | rfl⟩ | ⟨v, rfl, rfl⟩
      all_goals
        obtain ⟨a, ha, hk⟩ := kwargs_gives g2 ["type", "materials"] (fun k hk => by
          rw [← lookup_some_mem] at hk
          simp at hk
          try simp [hk])
        simp only [matStep, ha, hk]; rfl
  have e4 : writePart f = .ok (.write out) := by
    rcases ho with ⟨g1, rfl⟩ | ⟨s, g1, ⟨g2, rfl⟩ | g2⟩
    · rw [writePart, g1]
    · rw [writePart, g1]
      obtain ⟨a, ha, hk⟩ := kwargs_gives g2 ["output_filename"] (fun k hk => by simp at hk)
      simp only [writeStep, ha, hk]; rfl
    · rw [writePart, g1]
      obtain ⟨a, ha, hk⟩ := kwargs_gives g2 ["output_filename"] (fun k hk => by simp [one_lookup hk])
      simp only [writeStep, ha, hk]; rfl
  unfold steps
  rw [e1, e2, e3, e4]
  simp

/-- **C131**: when the sections are as the manual says and no method raises, the model is read, the filters of the file are set, everything is built, and the CAD files get the name of the file -/
theorem C131_runs (api : List Act → Act → Bool) (hapi : ∀ d a, api d a = true) (f : File) (inp fmt out : String) (cells mats : List Call) (h : Asks f inp fmt cells mats out) :
    main api f = ([.read inp fmt] ++ cells.map .filter ++ mats.map .filter ++ [.build, .write out], none) := by
  rw [main, steps_asks h, exec_ok api _ _ hapi]
  simp

/-- the filter calls among the actions -/
def callsOf (l : List Act) : List Call := l.filterMap fun a => match a with
  | .filter c => some c
  | _ => none

/-- **C131**: and the cells built are those that the two sections admit: the filters that were set select exactly them (MCNP files; with C65) -/
theorem C131_cells (api : List Act → Act → Bool) (hapi : ∀ d a, api d a = true) (f : File) (inp fmt out : String) (cells mats : List Call) (h : Asks f inp fmt cells mats out)
    (hl : ListsGiven (cells ++ mats)) (model : List SCell) :
    selectMcnp (Filters.after (callsOf (main api f).1)) model = .ok (model.filter fun c => decide (Wanted (cells ++ mats) c)) := by
  have e : ∀ l : List Call, callsOf (l.map .filter) = l := by
    intro l; induction l with
    | nil => rfl
    | cons c l ih => simp only [callsOf] at ih; simp [callsOf]
  have e2 : callsOf (main api f).1 = cells ++ mats := by
    rw [C131_runs api hapi f inp fmt out cells mats h]
    have := e cells
    have := e mats
    simp only [callsOf] at *
    simp [List.filterMap_append, *]
  rw [e2]
  exact C65_mcnp _ _ hl

theorem exec_error (api : List Act → Act → Bool) : ∀ (l : List (Except CliErr Act)) (done : List Act), (∃ e, (exec api l done).2 = some e) →
    ∃ l1 l2, l = l1.map .ok ++ l2 ∧ l2 ≠ [] ∧ (exec api l done).1 = done ++ l1 := by
  intro l
  induction l with
  | nil => intro done h; obtain ⟨e, h⟩ := h; simp [exec] at h
  | cons s l ih =>
    intro done h
    cases s with
    | error e => exact ⟨[], .error e :: l, rfl, by simp, by simp [exec]⟩
    | ok a =>
      simp only [exec] at h ⊢
      by_cases ha : api done a = true
      · rw [if_pos ha] at h ⊢
        obtain ⟨l1, l2, rfl, h2, h3⟩ := ih _ h
        exact ⟨a :: l1, l2, rfl, h2, by rw [h3]; simp⟩
      · rw [if_neg ha]
        exact ⟨[], .ok a :: l, rfl, by simp, by simp⟩

/-- **C131**: nothing is written unless every statement before succeeded: after an exception, whichever it is, no CAD file of this run exists -/
theorem C131_no_partial_output (api : List Act → Act → Bool) (f : File) (e : CliErr) (h : (main api f).2 = some e) (n : String) : Act.write n ∉ (main api f).1 := by
  obtain ⟨l1, l2, h1, h2, h3⟩ := exec_error api (steps f) [] ⟨e, h⟩
  rw [main, h3, List.nil_append]
  intro hw
  -- only the last statement writes
  have hlast : ∀ i, ∀ hi : i < (steps f).length, (steps f)[i]'hi = .ok (.write n) → i + 1 = (steps f).length := by
    have gen : ∀ A : List (Except CliErr Act), ∀ b, (∀ x ∈ A, x ≠ .ok (.write n)) → ∀ i, ∀ hi : i < (A ++ [b]).length, (A ++ [b])[i]'hi = .ok (.write n) → i + 1 = (A ++ [b]).length := by
      intro A b hA i hi hx
      by_contra hne
      have hlt : i < A.length := by simp only [List.length_append, List.length_singleton] at hi hne; omega
      rw [List.getElem_append_left hlt] at hx
      exact hA _ (List.getElem_mem hlt) hx
    unfold steps
    apply gen
    intro x hx
    simp only [List.mem_append, List.mem_singleton] at hx
    rcases hx with ((hx | hx) | hx) | hx
    · subst hx
      unfold readPart
      split
      · simp
      · unfold readStep; split
        · simp
        · split
          · split <;> simp
          · simp
          · simp
    · unfold cellPart at hx
      split at hx
      · simp at hx
      · rw [List.mem_singleton] at hx; subst hx
        unfold cellStep; split
        · simp
        · split <;> simp
    · unfold matPart at hx
      split at hx
      · simp at hx
      · rw [List.mem_singleton] at hx; subst hx
        unfold matStep; split
        · simp
        · split <;> simp
    · subst hx; simp
  obtain ⟨i, hi, hx⟩ := List.getElem_of_mem hw
  have hi' : i < (steps f).length := by rw [h1]; simp; omega
  have := hlast i hi' (by simp only [h1]; rw [List.getElem_append_left (by simpa using hi)]; simp [hx])
  rw [h1] at this
  simp only [List.length_append, List.length_map] at this
  exact h2 (List.length_eq_zero_iff.1 (by omega))

theorem lookup_perm {α : Type} {l l' : List (String × α)} (h : l.Perm l') (hn : (l.map Prod.fst).Nodup) (k : String) : l.lookup k = l'.lookup k := by
  induction h with
  | nil => rfl
  | cons p _ ih =>
    obtain ⟨a, v⟩ := p
    simp only [List.map_cons, List.nodup_cons] at hn
    simp only [List.lookup_cons]
    rw [ih hn.2]
  | swap p q l =>
    obtain ⟨a, v⟩ := p
    obtain ⟨b, w⟩ := q
    simp only [List.map_cons, List.nodup_cons, List.mem_cons, not_or] at hn
    simp only [List.lookup_cons]
    by_cases h1 : k = a
    · subst h1
      rw [beq_false_of_ne (Ne.symm hn.1.1)]
    · rw [beq_false_of_ne h1]
  | trans h1 _ ih1 ih2 => rw [ih1 hn, ih2 ((h1.map Prod.fst).nodup_iff.1 hn)]

/-- **C131**: the order of the sections in the file does not matter -/
theorem C131_order (api : List Act → Act → Bool) (f f' : File) (hd : f.Dict) (h : f.Perm f') : main api f = main api f' := by
  unfold main steps readPart cellPart matPart writePart
  rw [lookup_perm h hd, lookup_perm h hd, lookup_perm h hd, lookup_perm h hd]

/-- **C131**: without the section `read_csg`, `KeyError`, and nothing is done -/
theorem C131_no_read (api : List Act → Act → Bool) (f : File) (h : f.lookup "read_csg" = none) : main api f = ([], some .keyError) := by
  unfold main steps readPart
  rw [h]
  rfl

/-- the sections that have an effect -/
def sections : List String := ["read_csg", "cell_filter", "mat_filter", "export_cad"]

theorem lookup_filter {α : Type} (l : List (String × α)) (ks : List String) (k : String) (hk : k ∈ ks) : (l.filter fun p => ks.contains p.1).lookup k = l.lookup k := by
  induction l with
  | nil => rfl
  | cons p l ih =>
    obtain ⟨a, v⟩ := p
    by_cases ha : a ∈ ks
    · rw [List.filter_cons_of_pos (by simpa using ha)]
      simp only [List.lookup_cons, ih]
    · rw [List.filter_cons_of_neg (by simpa using ha), ih, List.lookup_cons, beq_false_of_ne (by rintro rfl; exact ha hk)]

/-- all other sections of the file have no effect -/
theorem C131_other_sections (api : List Act → Act → Bool) (f : File) : main api (f.filter fun p => sections.contains p.1) = main api f := by
  unfold main steps readPart cellPart matPart writePart
  rw [lookup_filter f sections "read_csg" (by simp [sections]), lookup_filter f sections "cell_filter" (by simp [sections]), lookup_filter f sections "mat_filter" (by simp [sections]),
    lookup_filter f sections "export_cad" (by simp [sections])]

/-- every section of the file is used or refused -/
def C131_statement : Prop :=
  ∀ (api : List Act → Act → Bool) (f : File) (k : String) (s : Sect), f.Dict → (k, s) ∈ f → k ∉ sections → (main api f).2 ≠ none

/-- a file whose author gave the filter of materials the name of the method -/
def misnamed : File := [("read_csg", .dict [("input_filename", .str "a.mcnp"), ("csg_format", .str "mcnp")]), ("material_filter", .dict [("type", .str "include"), ("materials", .list [1])])]

/-- **C131** is false of sections with another name: a filter of materials under the name of its method is silently ignored, and the cells of all materials are built -/
theorem C131_ignored_violated : ¬ C131_statement ∧ main (fun _ _ => true) misnamed = ([.read "a.mcnp" "mcnp", .build, .write ""], none) := by
  have e : main (fun _ _ => true) misnamed = ([.read "a.mcnp" "mcnp", .build, .write ""], none) := by decide
  refine ⟨fun h => ?_, e⟩
  exact h (fun _ _ => true) misnamed "material_filter" (.dict [("type", .str "include"), ("materials", .list [1])]) (by unfold File.Dict; decide) (by decide) (by decide) (by rw [e])

/-! ### non-vacuity -/

def sample : File := [("cell_filter", .dict [("type", .str "exclude"), ("cells", .list [3, 4])]), ("export_cad", .dict [("output_filename", .str "b")]),
  ("read_csg", .dict [("csg_format", .str "mcnp"), ("input_filename", .str "a.mcnp")])]

example : main (fun _ _ => true) sample = ([.read "a.mcnp" "mcnp", .filter (.cells "exclude" (some [3, 4])), .build, .write "b"], none) := by decide

example : Asks sample "a.mcnp" "mcnp" [.cells "exclude" (some [3, 4])] [] "b" where
  read := ⟨_, rfl, _, rfl, fun k => by
    simp only [List.lookup_cons, List.lookup_nil]
    by_cases h1 : k = "csg_format"
    · subst h1; rfl
    · by_cases h2 : k = "input_filename"
      · subst h2; rfl
      · rw [beq_false_of_ne h1, beq_false_of_ne h2]⟩
  fmt_ok := .inl rfl
  cells := .inr ⟨_, "exclude", some [3, 4], _, _, rfl, rfl, ⟨_, rfl, fun _ => rfl⟩, .inr rfl, .inr ⟨[3, 4], rfl, rfl⟩⟩
  mats := .inl ⟨rfl, rfl⟩
  out := .inr ⟨_, rfl, .inr ⟨_, rfl, fun _ => rfl⟩⟩

/-- an exception in the middle: nothing is written -/
example : main (fun d _ => decide (d.length < 2)) sample = ([.read "a.mcnp" "mcnp", .filter (.cells "exclude" (some [3, 4]))], some .raised) := by decide

end Geouned.RCli
