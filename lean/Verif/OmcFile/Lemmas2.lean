import Verif.OmcFile.Lemmas
/-! # Lemmas for the OpenMC files: the elements of the XML file -/
namespace Geouned.OmcFile

open Geouned.Text

theorem join_intercalate (sep : List Char) : ∀ l : List (List Char), join sep l = List.intercalate sep l
  | [] => rfl
  | [t] => by simp [join, List.intercalate]
  | t :: t' :: ts => by
    have := join_intercalate sep (t' :: ts)
    simp only [join, this]
    simp [List.intercalate, List.intersperse]

theorem inter_cons {sep a : List Char} : ∀ {l : List (List Char)}, l ≠ [] → List.intercalate sep (a :: l) = a ++ sep ++ List.intercalate sep l
  | [], h => absurd rfl h
  | b :: l, _ => by simp [List.intercalate, List.intersperse]

theorem isBreak_plain {c : Char} (h : c.toNat ∉ [11, 12, 13, 28, 29, 30, 133, 8232, 8233]) : isBreak c = true ↔ c = '\n' := by
  unfold isBreak
  simp only [List.mem_cons, List.not_mem_nil, or_false, not_or, decide_eq_true_eq] at h ⊢
  constructor
  · intro h'
    have : c.toNat = '\n'.toNat := by rcases h' with h' | h' | h' | h' | h' | h' | h' | h' | h' | h' <;> first | exact h' | omega
    exact Char.ext (UInt32.toNat_inj.mp this)
  · rintro rfl; left; rfl

theorem splitLines_cons {c : Char} (h : c ≠ '\r') (cur s : List Char) :
    splitLines cur (c :: s) = if isBreak c then cur :: splitLines [] s else splitLines (cur ++ [c]) s := by
  rw [splitLines]
  rintro s' rfl _
  exact h rfl

theorem splitLines_spec : ∀ (s cur : List Char), PlainBreaks s → '\n' ∉ cur →
    (∀ l ∈ splitLines cur s, '\n' ∉ l) ∧ (∀ l ∈ splitLines cur s, ∀ c ∈ l, c ∈ cur ∨ c ∈ s)
    ∧ ((cur ++ s = List.intercalate ['\n'] (splitLines cur s) ∧ (splitLines cur s).getLast? ≠ some [])
      ∨ (cur ++ s = List.intercalate ['\n'] (splitLines cur s) ++ ['\n'] ∧ splitLines cur s ≠ []))
  | [], cur, _, hc => by
    unfold splitLines
    split
    · rename_i h
      subst h
      exact ⟨by simp, by simp, Or.inl ⟨by simp [List.intercalate], by simp⟩⟩
    · rename_i h
      exact ⟨by simpa using hc, by simp, Or.inl ⟨by simp [List.intercalate], by simpa using h⟩⟩
  | c :: s, cur, hp, hc => by
    have hp' : PlainBreaks s := fun x hx => hp x (List.mem_cons_of_mem _ hx)
    have hcc := hp c List.mem_cons_self
    have hr : c ≠ '\r' := by rintro rfl; exact hcc (by decide)
    rw [splitLines_cons hr]
    split
    · rename_i hb
      have hb := (isBreak_plain hcc).mp hb
      subst hb
      obtain ⟨h1, h2, h3⟩ := splitLines_spec s [] hp' (by simp)
      refine ⟨?_, ?_, ?_⟩
      · intro l hl
        rcases List.mem_cons.mp hl with rfl | hl
        · exact hc
        · exact h1 l hl
      · intro l hl x hx
        rcases List.mem_cons.mp hl with rfl | hl
        · exact Or.inl hx
        · rcases h2 l hl x hx with h | h
          · simp at h
          · exact Or.inr (List.mem_cons_of_mem _ h)
      · rw [List.nil_append] at h3
        by_cases hL : splitLines [] s = []
        · right
          rw [hL] at h3 ⊢
          rcases h3 with ⟨h3, -⟩ | ⟨-, h3⟩
          · refine ⟨?_, by simp⟩
            have h3 : s = [] := by rw [h3]; rfl
            subst h3
            simp [List.intercalate]
          · exact absurd rfl h3
        · rw [inter_cons hL]
          rcases h3 with ⟨h3, h4⟩ | ⟨h3, h4⟩
          · left
            refine ⟨by conv => lhs; rw [h3]
                       simp, ?_⟩
            rw [List.getLast?_cons]
            cases hg : (splitLines [] s).getLast? with
            | none => exact absurd (List.getLast?_eq_none_iff.mp hg) hL
            | some x => rw [hg] at h4; simpa using h4
          · right
            refine ⟨?_, by simp⟩
            conv => lhs; rw [h3]
            simp
    · rename_i hb
      have hn : c ≠ '\n' := fun h => hb ((isBreak_plain hcc).mpr h)
      obtain ⟨h1, h2, h3⟩ := splitLines_spec s (cur ++ [c]) hp' (by simp [hc, Ne.symm hn])
      refine ⟨h1, ?_, by simpa using h3⟩
      intro l hl x hx
      rcases h2 l hl x hx with h | h
      · rcases List.mem_append.mp h with h | h
        · exact Or.inl h
        · simp at h; simp [h]
      · exact Or.inr (List.mem_cons_of_mem _ h)

theorem mem_inter {sep : List Char} {x : Char} : ∀ {l : List (List Char)}, x ∈ List.intercalate sep l → x ∈ sep ∨ ∃ t ∈ l, x ∈ t
  | [], h => by simp [List.intercalate] at h
  | [t], h => by right; exact ⟨t, by simp, by simpa [List.intercalate] using h⟩
  | t :: t' :: ts, h => by
    rw [inter_cons (by simp)] at h
    rcases List.mem_append.mp h with h | h
    · rcases List.mem_append.mp h with h | h
      · exact Or.inr ⟨t, by simp, h⟩
      · exact Or.inl h
    · rcases mem_inter h with h | ⟨u, hu, h⟩
      · exact Or.inl h
      · exact Or.inr ⟨u, List.mem_cons_of_mem _ hu, h⟩

theorem name_text {c : Cell} (hp : PlainBreaks c.comments) : NameText c.comments (cellName c) := by
  obtain ⟨h1, h2, h3⟩ := splitLines_spec c.comments [] hp (by simp)
  exact ⟨splitLines [] c.comments, h1, by simpa using h3, join_intercalate _ _⟩

/-- the characters of the name -/
theorem name_chars {c : Cell} (hp : PlainBreaks c.comments) {x : Char} (hx : x ∈ cellName c) : x = '.' ∨ x = ' ' ∨ (x ∈ c.comments ∧ x ≠ '\n') := by
  obtain ⟨h1, h2, h3⟩ := splitLines_spec c.comments [] hp (by simp)
  unfold cellName at hx
  rw [join_intercalate] at hx
  rcases mem_inter hx with hx | ⟨t, ht, hx⟩
  · have : x = '.' ∨ x = ' ' := by simpa [T] using hx
    tauto
  · rcases h2 t ht _ hx with h | h
    · simp at h
    · exact Or.inr (Or.inr ⟨h, fun e => h1 t ht (e ▸ hx)⟩)

/-- the name of a cell -/
theorem name_says {c : Cell} (hp : PlainBreaks c.comments) : NameSays c.comments (norm (cellName c)) := by
  refine ⟨cellName c, name_text hp, ?_⟩
  unfold norm
  refine List.map_congr_left fun x hx => ?_
  rcases name_chars hp hx with rfl | rfl | ⟨hx, hn⟩
  · rfl
  · rfl
  · have hr : x ≠ '\r' := by
      rintro rfl
      exact hp _ hx (by decide)
    unfold ws
    by_cases hb : x = ' '
    · simp [hb]
    · simp [hb, hn, hr]

theorem name_attr {c : Cell} (hp : PlainBreaks c.comments) (ha : Attr c.comments) : Attr (cellName c) := by
  intro x hx
  rcases name_chars hp hx with rfl | rfl | ⟨h, -⟩
  · decide
  · decide
  · exact ha _ h

theorem digit_attr {c : Char} (h : c.isDigit = true ∨ c = '-' ∨ c = '(' ∨ c = ')' ∨ c = '|' ∨ c = ' ') : (c ≠ '"' ∧ c ≠ '<' ∧ c ≠ '&' ∧ xmlChar c = true) ∧ (ws c = true → c = ' ') := by
  rcases h with h | h | h | h | h | h
  · have h' : 48 ≤ c.toNat ∧ c.toNat ≤ 57 := by
      simp only [Char.isDigit, Bool.and_eq_true, decide_eq_true_eq] at h
      exact ⟨h.1, h.2⟩
    refine ⟨⟨?_, ?_, ?_, ?_⟩, ?_⟩
    · rintro rfl; exact absurd h (by decide)
    · rintro rfl; exact absurd h (by decide)
    · rintro rfl; exact absurd h (by decide)
    · unfold xmlChar
      simp only [Bool.or_eq_true, Bool.and_eq_true, decide_eq_true_eq, bne_iff_ne, ne_eq, decide_not, Bool.not_eq_true', decide_eq_false_iff_not]
      right
      omega
    · intro hw
      unfold ws at hw
      simp only [Bool.or_eq_true, decide_eq_true_eq] at hw
      rcases hw with ((rfl | rfl) | rfl) | rfl <;> first | rfl | exact absurd h (by decide)
  all_goals subst h; decide

theorem strInt_attr (n : Int) : Attr (strInt n) ∧ norm (strInt n) = strInt n := by
  have h : ∀ c ∈ strInt n, c.isDigit = true ∨ c = '-' ∨ c = '(' ∨ c = ')' ∨ c = '|' ∨ c = ' ' := fun c hc => by
    rcases (strInt_word n).2 c hc with h | h <;> simp [h]
  exact ⟨fun c hc => (digit_attr (h c hc)).1, norm_self fun c hc => (digit_attr (h c hc)).2⟩

theorem material_attr (c : Cell) : Attr (xmlMaterial c) ∧ norm (xmlMaterial c) = xmlMaterial c ∧ (if c.material = 0 then xmlMaterial c = "void".toList else IsNum (xmlMaterial c) c.material) := by
  unfold xmlMaterial
  by_cases h : c.material = 0
  · simp only [h, if_true]
    exact ⟨by unfold Attr; decide, by decide, trivial⟩
  · simp only [h, if_false]
    exact ⟨(strInt_attr _).1, (strInt_attr _).2, tokOf_strInt _⟩

/-- the element of a cell -/
theorem xmlCell_says {r : Nat} {c : Cell} (hw : c.Wanted) (hg : GoodDef r c.definition) (hp : PlainBreaks c.comments) (ha : Attr c.comments) :
    ∃ t e, xmlCell r c = .ok t ∧ Written t e ∧ CellSays c e := by
  obtain ⟨k, hk⟩ := Option.ne_none_iff_exists'.mp hw.1
  obtain ⟨reg, h1, h2, h3⟩ := xml_region hg
  have hreg : Attr reg := fun x hx => (digit_attr (h3 x hx)).1
  have hregn : norm reg = reg := norm_self fun x hx => (digit_attr (h3 x hx)).2
  obtain ⟨m1, m2, m3⟩ := material_attr c
  refine ⟨_, ⟨"cell".toList, [("id".toList, strInt c.label), ("material".toList, xmlMaterial c), ("name".toList, norm (cellName c)), ("region".toList, reg), ("universe".toList, ['1'])]⟩,
    by unfold xmlCell; rw [hk]; dsimp only; rw [h1], ⟨by dsimp only; decide, ⟨[("id".toList, strInt c.label), ("material".toList, xmlMaterial c), ("name".toList, cellName c), ("region".toList, reg), ("universe".toList, ['1'])],
      ['/', '>', '\n'], ?_, Or.inl rfl, ?_, ?_, by simp, ?_⟩, by simp⟩, ?_⟩
  · simp [T, attrText, List.flatMap_cons]
  · intro a ha'
    simp only [List.mem_cons, List.not_mem_nil, or_false] at ha'
    rcases ha' with rfl | rfl | rfl | rfl | rfl
    · exact ⟨by dsimp only; decide, by dsimp only; decide, (strInt_attr _).1⟩
    · exact ⟨by dsimp only; decide, by dsimp only; decide, m1⟩
    · exact ⟨by dsimp only; decide, by dsimp only; decide, name_attr hp ha⟩
    · exact ⟨by dsimp only; decide, by dsimp only; decide, hreg⟩
    · exact ⟨by dsimp only; decide, by dsimp only; decide, by unfold Attr; decide⟩
  · simp only [List.map_cons, List.map_nil]; decide
  · simp only [List.map_cons, List.map_nil, (strInt_attr c.label).2, m2, hregn]
    rfl
  · exact ⟨_, _, _, _, rfl, tokOf_strInt _, m3, name_says hp, h2⟩

/-- the element of a surface -/
theorem xmlSurface_says {b : Bool} {s : Surf} (h1 : Attr s.ty ∧ ∀ c ∈ s.ty, ws c = true → c = ' ') (h2 : Attr s.coeffs ∧ ∀ c ∈ s.coeffs, ws c = true → c = ' ') :
    ∃ e, Written (xmlSurface b s) e ∧ SurfSays b s e := by
  have e1 := norm_self h1.2
  have e2 := norm_self h2.2
  have e3 : norm "vacuum".toList = "vacuum".toList := by decide
  have tag : ("surface".toList ≠ [] ∧ ∀ c ∈ "surface".toList, nameChar c = true) := by decide
  cases b
  · refine ⟨⟨"surface".toList, [("id".toList, strInt s.index), ("type".toList, s.ty), ("coeffs".toList, s.coeffs)]⟩, ⟨tag, ⟨[("id".toList, strInt s.index), ("type".toList, s.ty), ("coeffs".toList, s.coeffs)],
      [' ', '/', '>', '\n'], ?_, Or.inr rfl, ?_, ?_, by simp, ?_⟩, by simp⟩, ⟨_, tokOf_strInt _, rfl⟩⟩
    · have a1 : T "  <surface id=\"" = ' ' :: ' ' :: '<' :: "surface".toList ++ ' ' :: "id".toList ++ ['=', '"'] := by decide
      have a2 : T "\" type=\"" = '"' :: ' ' :: "type".toList ++ ['=', '"'] := by decide
      have a3 : T "\" coeffs=\"" = '"' :: ' ' :: "coeffs".toList ++ ['=', '"'] := by decide
      have a4 : T "\" />\n" = '"' :: [' ', '/', '>', '\n'] := by decide
      have a5 : T "\" boundary=\"vacuum\" />\n" = '"' :: ' ' :: "boundary".toList ++ '=' :: '"' :: "vacuum".toList ++ ['"'] ++ [' ', '/', '>', '\n'] := by decide
      unfold xmlSurface
      rw [a1, a2, a3, a4, a5]
      generalize "surface".toList = x1
      generalize "id".toList = x2
      generalize "type".toList = x3
      generalize "coeffs".toList = x4
      generalize "boundary".toList = x5
      generalize "vacuum".toList = x6
      simp [attrText, List.flatMap_cons]
    · intro a ha'
      simp only [List.mem_cons, List.not_mem_nil, or_false] at ha'
      rcases ha' with ha' | ha' | ha' <;> rw [ha']
      · exact ⟨by dsimp only; decide, by dsimp only; decide, (strInt_attr _).1⟩
      · exact ⟨by dsimp only; decide, by dsimp only; decide, h1.1⟩
      · exact ⟨by dsimp only; decide, by dsimp only; decide, h2.1⟩
    · simp only [List.map_cons, List.map_nil]; decide
    · simp only [List.map_cons, List.map_nil, (strInt_attr s.index).2, e1, e2]
  · refine ⟨⟨"surface".toList, [("id".toList, strInt s.index), ("type".toList, s.ty), ("coeffs".toList, s.coeffs), ("boundary".toList, "vacuum".toList)]⟩, ⟨tag,
      ⟨[("id".toList, strInt s.index), ("type".toList, s.ty), ("coeffs".toList, s.coeffs), ("boundary".toList, "vacuum".toList)],
      [' ', '/', '>', '\n'], ?_, Or.inr rfl, ?_, ?_, by simp, ?_⟩, by simp⟩, ⟨_, tokOf_strInt _, rfl⟩⟩
    · have a1 : T "  <surface id=\"" = ' ' :: ' ' :: '<' :: "surface".toList ++ ' ' :: "id".toList ++ ['=', '"'] := by decide
      have a2 : T "\" type=\"" = '"' :: ' ' :: "type".toList ++ ['=', '"'] := by decide
      have a3 : T "\" coeffs=\"" = '"' :: ' ' :: "coeffs".toList ++ ['=', '"'] := by decide
      have a4 : T "\" />\n" = '"' :: [' ', '/', '>', '\n'] := by decide
      have a5 : T "\" boundary=\"vacuum\" />\n" = '"' :: ' ' :: "boundary".toList ++ '=' :: '"' :: "vacuum".toList ++ ['"'] ++ [' ', '/', '>', '\n'] := by decide
      unfold xmlSurface
      rw [a1, a2, a3, a4, a5]
      generalize "surface".toList = x1
      generalize "id".toList = x2
      generalize "type".toList = x3
      generalize "coeffs".toList = x4
      generalize "boundary".toList = x5
      generalize "vacuum".toList = x6
      simp [attrText, List.flatMap_cons]
    · intro a ha'
      simp only [List.mem_cons, List.not_mem_nil, or_false] at ha'
      rcases ha' with ha' | ha' | ha' | ha' <;> rw [ha']
      · exact ⟨by dsimp only; decide, by dsimp only; decide, (strInt_attr _).1⟩
      · exact ⟨by dsimp only; decide, by dsimp only; decide, h1.1⟩
      · exact ⟨by dsimp only; decide, by dsimp only; decide, h2.1⟩
      · exact ⟨by dsimp only; decide, by dsimp only; decide, by unfold Attr; decide⟩
    · simp only [List.map_cons, List.map_nil]; decide
    · simp only [List.map_cons, List.map_nil, (strInt_attr s.index).2, e1, e2, e3]

/-! ## the file -/

theorem xmlCells_says {r : Nat} : ∀ {cs : List Cell}, (∀ c ∈ cs, c.matInfo ≠ some "Graveyard".toList) → (∀ c ∈ cs, c.Wanted → GoodDef r c.definition ∧ PlainBreaks c.comments ∧ Attr c.comments) →
    ∃ ts es, xmlCells r cs = .ok ts.flatten ∧ List.Forall₂ Written ts es ∧ List.Forall₂ CellSays (cs.filter (fun c => c.Wanted)) es
  | [], _, _ => ⟨[], [], rfl, .nil, .nil⟩
  | c :: cs, hg, h => by
    obtain ⟨ts, es, h1, h2, h3⟩ := xmlCells_says (fun c hc => hg c (List.mem_cons_of_mem _ hc)) (fun c hc => h c (List.mem_cons_of_mem _ hc))
    by_cases hid : c.id = none
    · refine ⟨ts, es, ?_, h2, ?_⟩
      · unfold xmlCells xmlCell
        rw [hid, h1]
        rfl
      · rw [List.filter_cons_of_neg (by simp [Cell.Wanted, hid])]
        exact h3
    · have hw : c.Wanted := ⟨hid, hg c List.mem_cons_self⟩
      obtain ⟨g1, g2, g3⟩ := h c List.mem_cons_self hw
      obtain ⟨t, e, k1, k2, k3⟩ := xmlCell_says hw g1 g2 g3
      refine ⟨t :: ts, e :: es, ?_, .cons k2 h2, ?_⟩
      · unfold xmlCells
        rw [k1, h1]
        rfl
      · rw [List.filter_cons_of_pos (by simpa using hw)]
        exact .cons k3 h3

theorem xmlSurfaces_says : ∀ {ss : List Surf}, (∀ s ∈ ss, (Attr s.ty ∧ ∀ c ∈ s.ty, ws c = true → c = ' ') ∧ (Attr s.coeffs ∧ ∀ c ∈ s.coeffs, ws c = true → c = ' ')) →
    ∃ es, List.Forall₂ Written (ss.map (xmlSurface false)) es ∧ List.Forall₂ (SurfSays false) ss es
  | [], _ => ⟨[], .nil, .nil⟩
  | s :: ss, h => by
    obtain ⟨es, h1, h2⟩ := xmlSurfaces_says (fun s hs => h s (List.mem_cons_of_mem _ hs))
    obtain ⟨g1, g2⟩ := h s List.mem_cons_self
    obtain ⟨e, k1, k2⟩ := xmlSurface_says (b := false) g1 g2
    exact ⟨e :: es, .cons k1 h1, .cons k2 h2⟩

theorem written_length {ts : List (List Char)} {es : List Elem} (h : List.Forall₂ Written ts es) : ts.length ≤ ts.flatten.length := by
  induction h with
  | nil => simp
  | @cons t e ts es h _ ih =>
    obtain ⟨-, ⟨l, z, rfl, -⟩, -⟩ := h
    rw [List.flatten_cons, List.length_append, List.length_cons]
    have : 1 ≤ (' ' :: ' ' :: '<' :: e.tag ++ (l.flatMap attrText ++ z)).length := by simp
    omega

theorem readXml_prefix {R : List Char} {es : List Elem}
    (h : readElems (T "<?xml version='1.0' encoding='UTF-8'?>\n<geometry>" ++ R).length R = some (es, T "geometry>\n")) :
    readXml (T "<?xml version='1.0' encoding='UTF-8'?>\n<geometry>" ++ R) = some ("geometry".toList, es) := by
  unfold readXml
  have hP : T "<?xml version='1.0' encoding='UTF-8'?>\n<geometry>" = ['<', '?', 'x', 'm', 'l', ' ', 'v', 'e', 'r', 's', 'i', 'o', 'n', '=', '\'', '1', '.', '0', '\'', ' ',
    'e', 'n', 'c', 'o', 'd', 'i', 'n', 'g', '=', '\'', 'U', 'T', 'F', '-', '8', '\'', '?', '>', '\n', '<', 'g', 'e', 'o', 'm', 'e', 't', 'r', 'y', '>'] := by decide
  have hx : "<?xml".toList = ['<', '?', 'x', 'm', 'l'] := by decide
  have hg : T "geometry>\n" = ['g', 'e', 'o', 'm', 'e', 't', 'r', 'y', '>', '\n'] := by decide
  have hge : "geometry".toList = ['g', 'e', 'o', 'm', 'e', 't', 'r', 'y'] := by decide
  have ha : afterDecl (T "<?xml version='1.0' encoding='UTF-8'?>\n<geometry>" ++ R) = some ('\n' :: '<' :: "geometry".toList ++ '>' :: R) := by
    rw [hP, hge]
    simp [afterDecl]
  have ht : (T "<?xml version='1.0' encoding='UTF-8'?>\n<geometry>" ++ R).take 5 = "<?xml".toList := by
    rw [hP, hx]
    rfl
  have hd : ('\n' :: '<' :: "geometry".toList ++ '>' :: R).dropWhile ws = '<' :: ("geometry".toList ++ '>' :: R) := by
    rw [List.cons_append, List.dropWhile_cons_of_pos (by decide), List.cons_append, List.dropWhile_cons_of_neg (by decide)]
  obtain ⟨s1, s2⟩ := span_name (k := "geometry".toList) (by decide) '>' (by decide) R
  have w1 : (T "geometry>\n").takeWhile nameChar = "geometry".toList := by decide
  have w2 : (T "geometry>\n").dropWhile nameChar = ['>', '\n'] := by decide
  rw [if_neg (by rw [ht]; simp), ha, Option.map_some, hd]
  generalize hx1 : "geometry".toList ++ '>' :: R = x1 at s1 s2
  split
  next t ht' =>
    obtain rfl : x1 = t := by injection ht' with ht'; injection ht'
    rw [s2]
    split
    next u hu =>
      obtain rfl : R = u := by injection hu
      rw [h]
      dsimp only
      rw [s1, w1, w2, if_pos ⟨rfl, by decide, by decide, by decide⟩]
    next hu => exact absurd rfl (hu R)
  next ht' => exact absurd rfl (ht' x1)

theorem writeXml_reads {r : Nat} {cs : List Cell} {ss : List Surf} (h : GoodXml r cs ss) :
    ∃ t es, writeXml r cs ss = .ok t ∧ readXml t = some ("geometry".toList, es) ∧ Says cs ss es := by
  obtain ⟨hs, hc, hf⟩ := h
  have hsub : ∀ c ∈ shown cs, c ∈ cs ∧ c.matInfo ≠ some "Graveyard".toList := fun c hc => by
    unfold shown at hc
    rw [List.mem_filter] at hc
    exact ⟨hc.1, of_decide_eq_true hc.2⟩
  obtain ⟨ts, es, h1, h2, h3⟩ := xmlCells_says (r := r) (cs := shown cs) (fun c hc => (hsub c hc).2) (fun c hc' => hc c (hsub c hc').1)
  have hshown : (shown cs).filter (fun c => c.Wanted) = cs.filter (fun c => c.Wanted) := by
    unfold shown
    rw [List.filter_filter]
    refine List.filter_congr fun c _ => ?_
    by_cases hw : c.Wanted
    · have h2 := hw.2
      rw [decide_eq_true hw, Bool.true_and]
      exact decide_eq_true h2
    · rw [decide_eq_false hw, Bool.false_and]
  rw [hshown] at h3
  obtain ⟨s, hlast⟩ : ∃ s, ss.getLast? = some s := by
    cases h : ss.getLast? with
    | none => exact absurd (List.getLast?_eq_none_iff.mp h) hs
    | some s => exact ⟨s, rfl⟩
  have hss : ss = ss.dropLast ++ [s] := (List.dropLast_append_getLast? s hlast).symm
  obtain ⟨fs, k1, k2⟩ := xmlSurfaces_says (ss := ss.dropLast) (fun s hs => hf s ((List.dropLast_sublist _).subset hs))
  obtain ⟨g1, g2⟩ := hf s (List.mem_of_getLast? hlast)
  obtain ⟨e, m1, m2⟩ := xmlSurface_says (b := true) g1 g2
  have hA : List.Forall₂ Written (ss.dropLast.map (xmlSurface false) ++ [xmlSurface true s]) (fs ++ [e]) := List.rel_append k1 (.cons m1 .nil)
  refine ⟨T "<?xml version='1.0' encoding='UTF-8'?>\n<geometry>\n" ++ ts.flatten ++ T " \n" ++ ((ss.dropLast.map (xmlSurface false) ++ [xmlSurface true s]).flatten) ++ T "</geometry>\n",
    es ++ (fs ++ [e]), ?_, ?_, es, fs, e, s, by simp, h3, hss, k2, m2⟩
  · unfold writeXml xmlSurfaces
    rw [h1, hlast]
    simp [List.flatMap_def]
  · generalize hB : ss.dropLast.map (xmlSurface false) ++ [xmlSurface true s] = us at hA
    generalize fs ++ [e] = gs at hA
    have l1 := written_length h2
    have l2 := written_length hA
    have hform : T "<?xml version='1.0' encoding='UTF-8'?>\n<geometry>\n" ++ ts.flatten ++ T " \n" ++ us.flatten ++ T "</geometry>\n"
        = T "<?xml version='1.0' encoding='UTF-8'?>\n<geometry>" ++ (['\n'] ++ (ts.flatten ++ ([' ', '\n'] ++ (us.flatten ++ T "</geometry>\n")))) := by
      simp [T]
    rw [hform]
    refine readXml_prefix ?_
    generalize hlen : (T "<?xml version='1.0' encoding='UTF-8'?>\n<geometry>" ++ (['\n'] ++ (ts.flatten ++ ([' ', '\n'] ++ (us.flatten ++ T "</geometry>\n"))))).length = n
    have hn : ts.length + us.length + 20 ≤ n := by
      rw [← hlen]
      simp only [T, List.length_append]
      have : "<?xml version='1.0' encoding='UTF-8'?>\n<geometry>".toList.length = 49 := by decide
      omega
    clear hlen
    obtain ⟨m, rfl, hm1, hm2⟩ : ∃ m, n = m + 1 + us.length + ts.length ∧ 5 < m + 1 + us.length ∧ 5 < m := ⟨n - us.length - ts.length - 1, by omega, by omega, by omega⟩
    have hend : readElems (m + 1) (T "</geometry>\n") = some ([], T "geometry>\n") := by
      have : T "</geometry>\n" = '<' :: '/' :: T "geometry>\n" := by decide
      rw [this]
      generalize T "geometry>\n" = g
      unfold readElems
      rw [List.dropWhile_cons_of_neg (by decide)]
      rfl
    rw [readElems_ws (by decide), readElems_text h2 _ hm1, readElems_ws (by decide), readElems_text hA _ (by omega), hend]
    simp

end Geouned.OmcFile
