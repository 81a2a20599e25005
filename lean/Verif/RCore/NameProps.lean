import Verif.RCore.NameModel
import Mathlib.Data.List.Basic
/-!
# C125: the names of the files that `export_cad` writes
-/
namespace Geouned.RCore

/-! ### Specification -/

/-- a directory part of a name: nothing, or something that ends with a slash -/
def DirPart (d : List Char) : Prop := d = [] ∨ ∃ d', d = d' ++ ['/']

/-- a last component of a path: a file name -/
def Component (c : List Char) : Prop := c ≠ [] ∧ c ≠ ['.'] ∧ '/' ∉ c

/-- the stem that the user means by the file name `c`, and the suffix of the STEP file: `.stp` and `.step` are suffixes, everything else belongs to the name -/
inductive Means : List Char → List Char → List Char → Prop
  | stp (b) : b ≠ [] → Means (b ++ ".stp".toList) b ".stp".toList
  | step (b) : b ≠ [] → Means (b ++ ".step".toList) b ".step".toList
  | bare (c) : (∀ b, b ≠ [] → c ≠ b ++ ".stp".toList ∧ c ≠ b ++ ".step".toList) → Means c c ".stp".toList

/-- **C125** in full: for a name with directory `d` and file name `c`, the files `d/stem.stp` (or `.step`) and `d/stem.FCStd` are written, and the tree has the label `stem`. -/
def C125_statement : Prop :=
  ∀ (input d c b e : List Char), DirPart d → Component c → Means c b e →
    exportCad input (d ++ c) = ⟨b, d ++ b ++ e, d ++ b ++ ".FCStd".toList⟩

/-! ### Lemmas -/

theorem parts_ne : ∀ s, parts s ≠ []
  | [] => by simp [parts]
  | c :: s => by
    unfold parts
    split
    · simp
    · split <;> simp

theorem parts_component : ∀ {c : List Char}, '/' ∉ c → parts c = [c]
  | [], _ => rfl
  | a :: c, h => by
    have ih := parts_component (c := c) (fun h' => h (by simp [h']))
    have ha : ¬ a = '/' := fun e => h (by simp [e])
    simp [parts, ha, ih]

theorem parts_dir : ∀ (d c : List Char), parts (d ++ '/' :: c) = parts d ++ parts c
  | [], c => by simp [parts]
  | a :: d, c => by
    have ih := parts_dir d c
    by_cases h : a = '/'
    · rw [List.cons_append, parts, if_pos h, ih, parts, if_pos h, List.cons_append]
    · obtain ⟨p, ps, hp⟩ : ∃ p ps, parts d = p :: ps := List.exists_cons_of_ne_nil (parts_ne d)
      rw [List.cons_append, parts, if_neg h, ih, parts, if_neg h, hp]
      rfl

theorem pathName_component {d c : List Char} (hd : DirPart d) (hc : Component c) : pathName (d ++ c) = c := by
  obtain ⟨h1, h2, h3⟩ := hc
  have hf : [c].filter (fun p => decide (p ≠ [] ∧ p ≠ ['.'])) = [c] := by simp [h1, h2]
  unfold pathName
  rcases hd with rfl | ⟨d, rfl⟩
  · rw [List.nil_append, parts_component h3, hf]
    rfl
  · rw [List.append_assoc, List.singleton_append, parts_dir, parts_component h3, List.filter_append, hf]
    rw [List.getLastD_eq_getLast?, List.getLast?_append]
    rfl

theorem lastDot_none : ∀ {c : List Char}, '.' ∉ c → lastDot c = none
  | [], _ => rfl
  | a :: c, h => by
    have ih := lastDot_none (c := c) (fun h' => h (by simp [h']))
    have ha : ¬ a = '.' := fun e => h (by simp [e])
    simp [lastDot, ha, ih]

theorem lastDot_some : ∀ (b : List Char) {e : List Char}, '.' ∉ e → lastDot (b ++ '.' :: e) = some (b.length, '.' :: e)
  | [], e, h => by simp [lastDot, lastDot_none h]
  | a :: b, e, h => by simp [lastDot, lastDot_some b h]

/-- the last dot of a name -/
theorem dot_cases (c : List Char) : '.' ∉ c ∨ ∃ b e, c = b ++ '.' :: e ∧ '.' ∉ e := by
  induction c with
  | nil => simp
  | cons a c ih =>
    rcases ih with h | ⟨b, e, rfl, h⟩
    · by_cases ha : a = '.'
      · exact .inr ⟨[], c, by simp [ha], h⟩
      · exact .inl (by simp [h, Ne.symm ha])
    · exact .inr ⟨a :: b, e, rfl, h⟩

theorem exportCad_suffix {input d b e : List Char} (hd : DirPart d) (hb : b ≠ []) (he : e ≠ []) (h : '.' ∉ e) (hs : '/' ∉ b) (hs' : '/' ∉ e) :
    exportCad input (d ++ (b ++ '.' :: e)) =
      ⟨b, d ++ b ++ (if '.' :: e = ".stp".toList ∨ '.' :: e = ".step".toList then '.' :: e else ".stp".toList), d ++ b ++ ".FCStd".toList⟩ := by
  have hc : Component (b ++ '.' :: e) := by
    refine ⟨by simp, ?_, by simp [hs, hs']⟩
    intro h'
    have := congrArg List.length h'
    cases b
    · exact hb rfl
    · simp at this
  have hn := pathName_component hd hc
  have hl : 0 < b.length := List.length_pos_iff.2 hb
  have hl' : 0 < e.length := List.length_pos_iff.2 he
  have hsuf : suffix (d ++ (b ++ '.' :: e)) = '.' :: e := by
    unfold suffix
    rw [hn, lastDot_some b h]
    simp only
    rw [if_pos]
    simp
    omega
  have hne : d ++ (b ++ '.' :: e) ≠ [] := by simp
  unfold exportCad
  simp only [if_neg hne, hn, hsuf, ne_eq, reduceCtorEq, not_false_eq_true, if_true]
  have t1 : (b ++ '.' :: e).take ((b ++ '.' :: e).length - ('.' :: e).length) = b := by simp
  have t2 : (d ++ (b ++ '.' :: e)).take ((d ++ (b ++ '.' :: e)).length - ('.' :: e).length) = d ++ b := by
    rw [← List.append_assoc, List.length_append, Nat.add_sub_cancel, List.take_left']
    rfl
  rw [t1, t2]

theorem exportCad_plain {input d c : List Char} (hd : DirPart d) (hc : Component c) (h : '.' ∉ c ∨ (∃ e, c = '.' :: e ∧ '.' ∉ e) ∨ ∃ b, c = b ++ ['.']) :
    exportCad input (d ++ c) = ⟨c, d ++ c ++ ".stp".toList, d ++ c ++ ".FCStd".toList⟩ := by
  have hn := pathName_component hd hc
  have hsuf : suffix (d ++ c) = [] := by
    unfold suffix
    rw [hn]
    rcases h with h | ⟨e, rfl, h⟩ | ⟨b, rfl⟩
    · rw [lastDot_none h]
    · have := lastDot_some [] h
      simp only [List.nil_append] at this
      rw [this]
      simp
    · rw [lastDot_some b (by simp)]
      simp
  have hne : d ++ c ≠ [] := by
    have := hc.1
    simp [this]
  unfold exportCad
  simp only [if_neg hne, hn, hsuf]
  simp

/-! ### Properties -/

theorem means_bare {c : List Char} (h : c.getLast? ≠ some 'p') : Means c c ".stp".toList := by
  refine .bare _ fun b _ => ⟨?_, ?_⟩ <;> rintro rfl <;> exact h (by simp)

/-- **C125** is false of the code: any suffix is removed from the name, so that `model_v1.2` is written to the files of `model_v1`. -/
theorem C125_violated : ¬ C125_statement := by
  intro h
  have := h [] [] "model_v1.2".toList "model_v1.2".toList ".stp".toList (.inl rfl) (by unfold Component; decide)
    (means_bare (by decide))
  exact absurd this (by decide)

/-- different stems give different files -/
def C125_apart_statement : Prop :=
  ∀ (input c b e c' b' e' : List Char), Component c → Component c' → Means c b e → Means c' b' e' → b ≠ b' → (exportCad input c).step ≠ (exportCad input c').step

/-- Two exports under different names, one file: the second overwrites the first. -/
theorem C125_apart_violated : ¬ C125_apart_statement := by
  intro h
  exact h [] "model_v1.2".toList "model_v1.2".toList ".stp".toList "model_v1.3".toList "model_v1.3".toList ".stp".toList (by unfold Component; decide) (by unfold Component; decide)
    (means_bare (by decide)) (means_bare (by decide)) (by decide) (by decide)

/-- **C125**, proved part: it holds for the names with suffix `.stp` or `.step`, and for the file names without a dot, with a leading dot only, or with a dot at the end. Missing: names with another suffix (there C125 is false: `C125_suffix`). -/
theorem C125_names_partial (input d c b e : List Char) (hd : DirPart d) (hc : Component c) (hm : Means c b e)
    (h : e = ".step".toList ∨ c ≠ b ∨ '.' ∉ c ∨ (∃ x, c = '.' :: x ∧ '.' ∉ x) ∨ ∃ x, c = x ++ ['.']) :
    exportCad input (d ++ c) = ⟨b, d ++ b ++ e, d ++ b ++ ".FCStd".toList⟩ := by
  cases hm with
  | stp b hb =>
    obtain ⟨-, -, hs⟩ := hc
    have := exportCad_suffix (input := input) (e := "stp".toList) hd hb (by decide) (by decide) (fun h => hs (by simp [h])) (by decide)
    exact this
  | step b hb =>
    obtain ⟨-, -, hs⟩ := hc
    have := exportCad_suffix (input := input) (e := "step".toList) hd hb (by decide) (by decide) (fun h => hs (by simp [h])) (by decide)
    exact this
  | bare _ _ =>
    rcases h with h | h | h
    · exact absurd h (by decide)
    · exact absurd rfl h
    · exact exportCad_plain hd hc h

/-- what is written for the other names: the last dot and what follows it are lost. -/
theorem C125_suffix (input d b e : List Char) (hd : DirPart d) (hb : b ≠ []) (he : e ≠ []) (h : '.' ∉ e) (hs : '/' ∉ b ++ e) (h1 : e ≠ "stp".toList) (h2 : e ≠ "step".toList) :
    exportCad input (d ++ (b ++ '.' :: e)) = ⟨b, d ++ b ++ ".stp".toList, d ++ b ++ ".FCStd".toList⟩ := by
  rw [exportCad_suffix hd hb he h (fun h => hs (by simp [h])) (fun h => hs (by simp [h]))]
  rw [if_neg]
  rintro (h' | h')
  · exact h1 (by simpa using h')
  · exact h2 (by simpa using h')

/-- Every file name is of one of the forms of `C125_names_partial` and `C125_suffix`: nothing else is left. -/
theorem C125_forms (c : List Char) : ('.' ∉ c ∨ (∃ x, c = '.' :: x ∧ '.' ∉ x) ∨ ∃ x, c = x ++ ['.']) ∨ ∃ b e, c = b ++ '.' :: e ∧ b ≠ [] ∧ e ≠ [] ∧ '.' ∉ e := by
  rcases dot_cases c with h | ⟨b, e, rfl, h⟩
  · exact .inl (.inl h)
  · by_cases hb : b = []
    · exact .inl (.inr (.inl ⟨e, by simp [hb], h⟩))
    · by_cases he : e = []
      · exact .inl (.inr (.inr ⟨b, by simp [he]⟩))
      · exact .inr ⟨b, e, rfl, hb, he, h⟩

/-- Without a name, the name of the input file is used, without its directory: the files come to the current directory. -/
theorem C125_default (d c : List Char) (hd : DirPart d) (hc : Component c) : exportCad (d ++ c) [] = exportCad [] c := by
  have h := pathName_component hd hc
  have hne : c ≠ [] := hc.1
  unfold exportCad
  simp [h, hne]

/-- Exports under names of the partial theorem with different stems write different files. -/
theorem C125_apart_partial (input d c b e d' c' b' e' : List Char) (hd : DirPart d) (hc : Component c) (hm : Means c b e) (hd' : DirPart d') (hc' : Component c') (hm' : Means c' b' e')
    (h : e = ".step".toList ∨ c ≠ b ∨ '.' ∉ c ∨ (∃ x, c = '.' :: x ∧ '.' ∉ x) ∨ ∃ x, c = x ++ ['.'])
    (h' : e' = ".step".toList ∨ c' ≠ b' ∨ '.' ∉ c' ∨ (∃ x, c' = '.' :: x ∧ '.' ∉ x) ∨ ∃ x, c' = x ++ ['.']) (hne : d ++ b ≠ d' ++ b') :
    let w := exportCad input (d ++ c)
    let w' := exportCad input (d' ++ c')
    ∀ f ∈ [w.step, w.fcstd], ∀ f' ∈ [w'.step, w'.fcstd], f ≠ f' := by
  intro w w'
  have hw : w = _ := C125_names_partial input d c b e hd hc hm h
  have hw' : w' = _ := C125_names_partial input d' c' b' e' hd' hc' hm' h'
  have key : ∀ x y : List Char, x ∈ [".stp".toList, ".step".toList, ".FCStd".toList] → y ∈ [".stp".toList, ".step".toList, ".FCStd".toList] → d ++ b ++ x ≠ d' ++ b' ++ y := by
    intro x y hx hy he
    have hr := congrArg List.reverse he
    simp only [List.reverse_append (as := d ++ b), List.reverse_append (as := d' ++ b')] at hr
    simp only [List.mem_cons, List.not_mem_nil, or_false] at hx hy
    rcases hx with rfl | rfl | rfl <;> rcases hy with rfl | rfl | rfl <;>
      simp [List.reverse_cons] at hr <;> exact hne (by simpa using congrArg List.reverse hr)
  have ee : e ∈ [".stp".toList, ".step".toList, ".FCStd".toList] := by cases hm <;> simp
  have ee' : e' ∈ [".stp".toList, ".step".toList, ".FCStd".toList] := by cases hm' <;> simp
  rw [hw, hw']
  intro f hf f' hf'
  simp only [List.mem_cons, List.not_mem_nil, or_false] at hf hf'
  rcases hf with rfl | rfl <;> rcases hf' with rfl | rfl <;> apply key <;> first | assumption | simp

/-- Non-vacuity: a name with a directory and suffix, a name without a dot, and the file that is lost. -/
example : exportCad [] "out/model.step".toList = ⟨"model".toList, "out/model.step".toList, "out/model.FCStd".toList⟩ ∧ DirPart "out/".toList ∧ Component "model.step".toList ∧
    Means "model.step".toList "model".toList ".step".toList :=
  ⟨by decide, .inr ⟨"out".toList, rfl⟩, by unfold Component; decide, .step "model".toList (by decide)⟩

example : exportCad "cases/run.1".toList [] = ⟨"run".toList, "run.stp".toList, "run.FCStd".toList⟩ ∧ exportCad "cases/run.2".toList [] = ⟨"run".toList, "run.stp".toList, "run.FCStd".toList⟩ := by
  decide

/-- a slash at the end of the name: the suffix is cut from the wrong place -/
example : exportCad [] "out/model.stp/".toList = ⟨"model".toList, "out/model..stp".toList, "out/model..FCStd".toList⟩ := by decide

end Geouned.RCore
