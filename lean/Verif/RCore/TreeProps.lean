import Verif.RCore.TreeLemmas2
import Verif.Text.CharLemmas
/-! # C128: the exported CAD document shows every built cell, once, under its universe and its material -/
namespace Geouned.RCore
open TreeSpec List

variable {S : Type}

/-- what the loop over the built universes gives -/
theorem treeLoop_ok (ts : List (Option Int × Int × List (Item S))) : ∀ (doc : Doc S) (root : Nat), root < doc.length →
    ∃ new rs, treeLoop doc root ts = addObjects doc root rs ++ new ∧ SAB (treeLoop doc root ts) (root + 1) rs (ts.map fun t => treeOf t.1 t.2.1 t.2.2) ∧
      new.flatMap Obj.children ++ rs ~ range' doc.length new.length ∧
      new.filterMap feat = (ts.flatMap fun t => cellsOfAll t.2.2).map (fun x => ("Cell_".toList ++ Text.strInt x.1 ++ '_' :: Text.strInt x.2.1, x.2.2)) ∧
      ∀ j, doc.length ≤ j → j < doc.length + new.length → ∃ r ∈ rs, Within (treeLoop doc root ts) r j := by
  induction ts with
  | nil =>
    intro doc root hr
    refine ⟨[], [], by simp [treeLoop, addObjects_nil], .nil, by simp, by simp, ?_⟩
    intro j h1 h2; simp at h2; omega
  | cons t ts ih =>
    intro doc root hg
    obtain ⟨c, u, l⟩ := t
    rw [treeLoop]
    obtain ⟨new1, t1, t2, t3, t4, t5, t6, t7⟩ := tree_ok doc c u l
    generalize makeTree doc c u l = out at *
    obtain ⟨d1, r⟩ := out
    dsimp only at *
    subst t1 t2
    obtain ⟨new, rs, h1, h2, h4, h5, h6⟩ := ih (addObjects (doc ++ new1) root [doc.length]) root (by simp; omega)
    have heq : treeLoop (addObjects (doc ++ new1) root [doc.length]) root ts = addObjects doc root (doc.length :: rs) ++ (new1 ++ new) := by
      rw [h1, addObjects_add, addObjects_append _ _ _ hg]; simp
    have hgrow : ∀ (k : Nat) (o' : Obj S), (doc ++ new1)[k]? = some o' →
        ∃ o'' : Obj S, (treeLoop (addObjects (doc ++ new1) root [doc.length]) root ts)[k]? = some o'' ∧ ∀ c ∈ o'.children, c ∈ o''.children := by
      intro k o' hk'
      rw [h1, addObjects_add]
      obtain ⟨o1, e1, e2⟩ := grow_add (doc ++ new1) root ([doc.length] ++ rs) k o' hk'
      obtain ⟨o2, e3, e4⟩ := grow_append _ new k o1 e1
      exact ⟨o2, e3, fun c hc => e4 c (e2 c hc)⟩
    refine ⟨new1 ++ new, doc.length :: rs, heq, ?_, ?_, ?_, ?_⟩
    · refine .cons (t4.mono hg fun j o' hj h => ?_) h2
      rw [h1, addObjects_add]
      exact ext_add _ _ _ _ j o' (by omega) h
    · simp only [List.flatMap_append]
      rw [show (addObjects (doc ++ new1) root [doc.length]).length = doc.length + new1.length by simp] at h4
      have e0 : range' doc.length (new1 ++ new).length = doc.length :: (range' (doc.length + 1) (new1.length - 1) ++ range' (doc.length + new1.length) new.length) := by
        rw [List.length_append, ← List.range'_append_1 (m := new1.length)]
        obtain ⟨k, hk⟩ : ∃ k, new1.length = k + 1 := ⟨new1.length - 1, by omega⟩
        rw [hk, List.range'_succ]; rfl
      rw [e0]
      rw [List.perm_iff_count] at h4 t5 ⊢
      intro a
      have e1 := h4 a
      have e2 := t5 a
      simp only [List.count_append, List.count_cons] at e1 e2 ⊢
      omega
    · rw [List.filterMap_append, t6, h5]
      simp only [List.flatMap_cons, List.map_append]
    · intro j hj1 hj2
      by_cases hj : j < doc.length + new1.length
      · exact ⟨_, List.mem_cons_self .., (t7 j hj1 hj).mono hgrow⟩
      · obtain ⟨r, hr, hw⟩ := h6 j (by simp; omega) (by simp at hj2 ⊢; omega)
        exact ⟨r, List.mem_cons_of_mem _ hr, hw⟩

theorem export_eq (label : List Char) (ts : List (Option Int × Int × List (Item S))) :
    exportDoc label ts = treeLoop [⟨.part, label, none, []⟩] 0 ts := rfl

/-! ## The property -/

/-- the first object of the document, the one that goes to the STEP file, shows the name of the file with, for each universe built, in order, its tree: the universes in it and, for each material of its
cells, the solids of these cells -/
theorem C128_tree (label : List Char) (ts : List (Option Int × Int × List (Item S))) :
    Shows (exportDoc label ts) 0 (.part label (ts.map fun t => treeOf t.1 t.2.1 t.2.2)) := by
  obtain ⟨new, rs, h1, h2, -, -, -⟩ := treeLoop_ok ts [⟨.part, label, none, []⟩] 0 (by simp)
  rw [export_eq]
  have h0 : (treeLoop [⟨.part, label, none, []⟩] 0 ts)[0]? = some (⟨.part, label, none, rs⟩ : Obj S) := by rw [h1]; simp [addObjects]
  exact Shows.part h0 rfl h2.shows

/-- every object of the document but the first is in exactly one part, once, and the first in none -/
theorem C128_once (label : List Char) (ts : List (Option Int × Int × List (Item S))) (j : Nat) :
    ((exportDoc label ts).flatMap Obj.children).count j = if 0 < j ∧ j < (exportDoc label ts).length then 1 else 0 := by
  obtain ⟨new, rs, h1, -, h3, -, -⟩ := treeLoop_ok ts [⟨.part, label, none, []⟩] 0 (by simp)
  rw [export_eq, h1]
  have e1 := h3.count_eq j
  have e2 : (addObjects [(⟨.part, label, none, []⟩ : Obj S)] 0 rs).flatMap Obj.children = rs := by simp [addObjects]
  rw [List.flatMap_append, e2]
  rw [List.count_append] at e1 ⊢
  rw [Nat.add_comm, e1, (List.nodup_range').count]
  simp only [List.mem_range'_1, List.length_append, addObjects_length, List.length_cons, List.length_nil]
  by_cases h : 0 < j ∧ j < 0 + 1 + new.length
  · rw [if_pos h, if_pos (by omega)]
  · rw [if_neg h, if_neg (by omega)]

/-- every object of the document is inside the first one: nothing that was built is missing in the STEP file -/
theorem C128_within (label : List Char) (ts : List (Option Int × Int × List (Item S))) (j : Nat) (hj : j < (exportDoc label ts).length) : Within (exportDoc label ts) 0 j := by
  obtain ⟨new, rs, h1, -, -, -, h5⟩ := treeLoop_ok ts [⟨.part, label, none, []⟩] 0 (by simp)
  rw [export_eq] at hj ⊢
  by_cases h : j = 0
  · subst h; exact .refl
  · have hl : (treeLoop [(⟨.part, label, none, []⟩ : Obj S)] 0 ts).length = 1 + new.length := by rw [h1]; simp
    obtain ⟨r, hr, hw⟩ := h5 j (by simp; omega) (by simp; omega)
    have h0 : (treeLoop [⟨.part, label, none, []⟩] 0 ts)[0]? = some (⟨.part, label, none, rs⟩ : Obj S) := by rw [h1]; simp [addObjects]
    exact (Within.step .refl h0 hr).trans' hw

/-- the solids of the document are those of the cells, each once, in the order of the cells, under the name and the material of the cell -/
theorem C128_solids (label : List Char) (ts : List (Option Int × Int × List (Item S))) :
    (exportDoc label ts).filterMap (fun o => match o.kind, o.shape with | .feature, some s => some (o.label, s) | _, _ => none) =
      (ts.flatMap fun t => cellsOfAll t.2.2).map fun x => ("Cell_".toList ++ Text.strInt x.1 ++ '_' :: Text.strInt x.2.1, x.2.2) := by
  obtain ⟨new, rs, h1, -, -, h4, -⟩ := treeLoop_ok ts [⟨.part, label, none, []⟩] 0 (by simp)
  rw [export_eq, h1, List.filterMap_append]
  refine Eq.trans ?_ h4
  rw [show (addObjects [(⟨.part, label, none, []⟩ : Obj S)] 0 rs) = [⟨.part, label, none, rs⟩] by simp [addObjects]]
  rfl

theorem strInt_inj {a b : Int} (h : Text.strInt a = Text.strInt b) : a = b := by
  have h1 := Text.tokOf_strInt a
  rw [h, Text.tokOf_strInt] at h1
  simpa using h1.symm

theorem strInt_us (a : Int) : '_' ∉ Text.strInt a := by
  intro h
  rcases (Text.strInt_word a).2 _ h with h | h <;> simp at h

theorem split_us {a b x y : List Char} (ha : '_' ∉ a) (hb : '_' ∉ b) (h : a ++ '_' :: x = b ++ '_' :: y) : a = b ∧ x = y := by
  induction a generalizing b with
  | nil =>
    cases b with
    | nil => simpa using h
    | cons c b => simp only [List.nil_append, List.cons_append, List.cons.injEq] at h; simp [← h.1] at hb
  | cons c a ih =>
    cases b with
    | nil => simp only [List.nil_append, List.cons_append, List.cons.injEq] at h; simp [h.1] at ha
    | cons d b =>
      simp only [List.cons_append, List.cons.injEq] at h
      simp only [List.mem_cons, not_or] at ha hb
      obtain ⟨h1, h2⟩ := ih ha.2 hb.2 h.2
      exact ⟨by rw [h.1, h1], h2⟩

theorem nameOf_inj {a b : Option Int} (h : nameOf a = nameOf b) : a = b := by
  have hn : ∀ n : Int, "None".toList ≠ Text.strInt n := by
    intro n hn
    have : 'N' ∈ Text.strInt n := by rw [← hn]; decide
    rcases (Text.strInt_word n).2 _ this with h | h <;> simp at h
  cases a <;> cases b
  · rfl
  · exact absurd h (hn _)
  · exact absurd h.symm (hn _)
  · rw [strInt_inj h]

/-- the label of the solid of a cell tells its name and its material -/
theorem C128_cell_label (n n' m m' : Int) (h : "Cell_".toList ++ Text.strInt n ++ '_' :: Text.strInt m = "Cell_".toList ++ Text.strInt n' ++ '_' :: Text.strInt m') : n = n' ∧ m = m' := by
  rw [List.append_assoc, List.append_assoc, List.append_cancel_left_eq] at h
  obtain ⟨h1, h2⟩ := split_us (strInt_us _) (strInt_us _) h
  exact ⟨strInt_inj h1, strInt_inj h2⟩

/-- the label of the part of a universe tells the universe and the cell it fills -/
theorem C128_universe_label (doc doc' : Doc S) (c c' : Option Int) (u u' : Int) (l l' : List (Item S)) (t t' : List (Tree S)) (lab : List Char)
    (h : treeOf c u l = .part lab t) (h' : treeOf c' u' l' = .part lab t') : c = c' ∧ u = u' := by
  rw [treeOf] at h h'
  injection h with h1 _
  injection h' with h2 _
  have := h1.trans h2.symm
  simp only [List.append_assoc, List.append_cancel_left_eq] at this
  obtain ⟨h1, h2⟩ := split_us (x := "Container_".toList ++ nameOf c) (y := "Container_".toList ++ nameOf c') (strInt_us _) (strInt_us _) this
  exact ⟨nameOf_inj (List.append_cancel_left h2), strInt_inj h1⟩

/-- the full statement on the parts of the materials: two of them with the same label belong to the same universe in the same cell -/
def C128_material_label : Prop :=
  ∀ (S : Type) (c c' : Option Int) (u u' : Int) (l l' : List (Item S)) (lab : List Char) (L L' : List Char) (t t' : List (Tree S)) (x x' : List (Tree S)),
    treeOf c u l = .part L t → treeOf c' u' l' = .part L' t' → .part lab x ∈ t → .part lab x' ∈ t' → (∀ m ∈ mats l, 0 ≤ m) → (∀ m ∈ mats l', 0 ≤ m) → c = c' ∧ u = u'

/-- the code violates it: container and universe are written one after the other, so universe 23 in cell 1 and universe 3 in cell 12 both have a part `Material_5_123` -/
theorem C128_material_label_violated : ¬ C128_material_label := by
  intro h
  have h1 := h Unit (some 1) (some 12) 23 3 [.cell 1 5 ()] [.cell 2 5 ()] "Material_5_123".toList _ _ _ _ [.solid "Cell_1_5".toList ()] [.solid "Cell_2_5".toList ()]
    (by rw [treeOf]) (by rw [treeOf])
    (by refine List.mem_append_right _ ?_; rw [show firsts (mats [Item.cell 1 5 ()]) = [5] from by decide]; exact List.mem_singleton.2 rfl)
    (by refine List.mem_append_right _ ?_; rw [show firsts (mats [Item.cell 2 5 ()]) = [5] from by decide]; exact List.mem_singleton.2 rfl)
    (by simp [mats]) (by simp [mats])
  exact absurd h1.2 (by decide)

/-- within one universe the parts of the materials have different labels, one for each material of its cells. What is missing in C128_material_label: parts of different universes. -/
theorem C128_material_label_partial (c : Option Int) (u m m' : Int)
    (h : "Material_".toList ++ Text.strInt m ++ '_' :: (nameOf c ++ Text.strInt u) = "Material_".toList ++ Text.strInt m' ++ '_' :: (nameOf c ++ Text.strInt u)) : m = m' := by
  rw [List.append_assoc, List.append_assoc, List.append_cancel_left_eq] at h
  exact strInt_inj (split_us (strInt_us _) (strInt_us _) h).1

/-- not vacuous: two materials, a universe in a cell, a cell of the first material after it -/
example : Shows (exportDoc "m".toList [(none, 0, [.cell 1 5 'a', .cell 2 6 'b', .univ (some 3) 7 [.cell 8 5 'c'], .cell 4 5 'd'])]) 0
    (.part "m".toList [.part "Universe_0_Container_None".toList
      [.part "Universe_7_Container_3".toList [.part "Material_5_37".toList [.solid "Cell_8_5".toList 'c']],
       .part "Material_5_None0".toList [.solid "Cell_1_5".toList 'a', .solid "Cell_4_5".toList 'd'],
       .part "Material_6_None0".toList [.solid "Cell_2_6".toList 'b']]]) := by
  have := C128_tree "m".toList [(none, 0, [Item.cell 1 5 'a', .cell 2 6 'b', .univ (some 3) 7 [.cell 8 5 'c'], .cell 4 5 'd'])]
  simp only [List.map_cons, List.map_nil, treeOf, inner] at this
  exact this

end Geouned.RCore
