import Verif.PhitsFile.OutLemmas
import Mathlib.Data.List.Infix
/-!
# Lemmas for C109: labels, header, materials, volumes, the file
-/
namespace Geouned.PhitsFile

open Geouned.McnpFile hiding SurfSays CellSays UniverseWords MatSays Cell Input Fmt Formats Good GoodCell words header matBlock materials
open Geouned.Card (fileText)

/-! ## labels -/

theorem digitsThen_sound : ∀ {s r : List Char}, digitsThen s = some r → ∃ x, Digits x ∧ s = x ++ '_' :: r
  | [], r, h => by simp [digitsThen] at h
  | c :: s, r, h => by
    unfold digitsThen at h
    by_cases hc : c.isDigit = true
    · rw [if_pos hc] at h
      split at h
      · next r' =>
        cases h
        exact ⟨[c], ⟨by simp, by simpa using hc⟩, rfl⟩
      · obtain ⟨x, hx, rfl⟩ := digitsThen_sound h
        refine ⟨c :: x, ⟨by simp, fun d hd => ?_⟩, rfl⟩
        rcases List.mem_cons.mp hd with rfl | hd
        · exact hc
        · exact hx.2 d hd
    · rw [if_neg hc] at h; cases h

theorem digitsThen_complete : ∀ {x r : List Char}, Digits x → digitsThen (x ++ '_' :: r) = some r
  | [], r, h => absurd rfl h.1
  | c :: x, r, h => by
    have hc := h.2 c (by simp)
    rw [List.cons_append]
    unfold digitsThen
    rw [if_pos hc]
    cases x with
    | nil => rfl
    | cons d x =>
      have hd := h.2 d (by simp)
      have hne : d ≠ '_' := by rintro rfl; revert hd; decide
      have := digitsThen_complete (r := r) (x := d :: x) ⟨by simp, fun e he => h.2 e (List.mem_cons_of_mem _ he)⟩
      split
      · next h' => exact absurd (List.cons.inj h').1 hne
      · exact this

theorem hasLabel_iff (word s : List Char) : hasLabel word s = true ↔ HasLabel word s := by
  unfold hasLabel HasLabel
  rw [List.any_eq_true]
  constructor
  · rintro ⟨t, ht, h⟩
    obtain ⟨a, ha⟩ := (List.mem_tails _ _).mp ht
    unfold labelAt at h
    split at h
    · next hp =>
      obtain ⟨u, hu⟩ := List.isPrefixOf_iff_prefix.mp hp
      rw [← hu, List.drop_left] at h
      split at h
      · cases h
      · next r hr =>
        obtain ⟨x, hx, rfl⟩ := digitsThen_sound hr
        obtain ⟨b, hb⟩ := Option.isSome_iff_exists.mp h
        obtain ⟨y, hy, rfl⟩ := digitsThen_sound hb
        refine ⟨a, x, y, b, hx, hy, ?_⟩
        rw [← ha, ← hu]
        simp
    · cases h
  · rintro ⟨a, x, y, b, hx, hy, rfl⟩
    refine ⟨word ++ (x ++ '_' :: (y ++ '_' :: b)), (List.mem_tails _ _).mpr ⟨a, by simp⟩, ?_⟩
    unfold labelAt
    rw [if_pos (List.isPrefixOf_iff_prefix.mpr (List.prefix_append _ _)), List.drop_left, digitsThen_complete hx]
    dsimp only
    rw [digitsThen_complete hy]
    rfl

theorem unified_eq {i : Input} {text : List Char} (h : i.stepText = some text) {uni : Bool} (hu : uni = true ↔ Unify text) : unified i = some uni := by
  unfold unified
  rw [h]
  dsimp only
  congr 1
  rw [Bool.eq_iff_iff, hu]
  unfold Unify
  rw [← hasLabel_iff, ← hasLabel_iff]
  simp [T]

/-! ## header and titles -/

set_option maxRecDepth 4000 in
theorem header_silent {f : Fmt} {i : Input} {uni : Bool} (h : Good f i uni) : ∃ ls, header i = fileText ls ∧ ∀ t ∈ ls, Silent t := by
  refine ⟨[T "$ " ++ i.title, T "$   ______ _______  _____      _     _ __   _ _______ ______  ",
    T "$  |  ____ |______ |     | ___ |     | | \\  | |______ |     \\ ", T "$  |_____| |______ |_____|     |_____| |  \\_| |______ |_____/",
    T "$ Version : " ++ i.version, T "$ FreeCAD Version : " ++ i.freecad ++ [' '], T "$ PHITSFormat Version :  0.0.2.3     06/03/2024", T "$",
    T "$ *************************************************************", T "$ Original Step file : " ++ i.step, T "$", T "$ Creation Date : " ++ i.date,
    T "$ Solid Cells   : " ++ Text.strInt (solidCount i), T "$ Total Cells   : " ++ Text.strInt (counted i).length,
    T "$ Surfaces      : " ++ Text.strInt i.surfaces.length,
    T "$ Materials     : " ++ Text.strInt (((counted i).map (·.material)).filter (· ≠ 0)).dedup.length, T "$",
    T "$ **************************************************************", [], []], ?_, ?_⟩
  · unfold header fileText T
    simp
  · have nl2 : ∀ {a b : List Char}, '\n' ∉ a → '\n' ∉ b → '\n' ∉ a ++ b := fun h1 h2 h => (List.mem_append.mp h).elim h1 h2
    have nli : ∀ n : Int, '\n' ∉ Text.strInt n := fun n => (tidy_int n).nl
    have lit : ∀ t : List Char, '\n' ∉ t → t.head? = some '$' → Silent t := by
      intro t h1 h2
      cases t with
      | nil => cases h2
      | cons a t =>
        have : a = '$' := by simpa using h2
        rw [this]
        exact silent_dollar (fun h => h1 (List.mem_cons_of_mem _ h))
    intro t ht
    simp only [List.mem_cons, List.not_mem_nil, or_false] at ht
    rcases ht with rfl | rfl | rfl | rfl | rfl | rfl | rfl | rfl | rfl | rfl | rfl | rfl | rfl | rfl | rfl | rfl | rfl | rfl | rfl | rfl
    · exact lit _ (nl2 (by decide) h.title) rfl
    · exact lit _ (by decide +kernel) rfl
    · exact lit _ (by decide +kernel) rfl
    · exact lit _ (by decide +kernel) rfl
    · exact lit _ (nl2 (by decide) h.version) rfl
    · exact lit _ (nl2 (nl2 (by decide) h.freecad) (by decide)) rfl
    · exact lit _ (by decide +kernel) rfl
    · exact lit _ (by decide) rfl
    · exact lit _ (by decide +kernel) rfl
    · exact lit _ (nl2 (by decide) h.step) rfl
    · exact lit _ (by decide) rfl
    · exact lit _ (nl2 (by decide) h.date) rfl
    · exact lit _ (nl2 (by decide) (nli _)) rfl
    · exact lit _ (nl2 (by decide) (nli _)) rfl
    · exact lit _ (nl2 (by decide) (nli _)) rfl
    · exact lit _ (nl2 (by decide) (nli _)) rfl
    · exact lit _ (by decide) rfl
    · exact lit _ (by decide +kernel) rfl
    · exact silent_nil
    · exact silent_nil

/-- comments, then the title of a section -/
def Opens (t : List Char) (s : List Char) : Prop := ∃ ls, s = fileText (ls ++ [t]) ∧ (∀ u ∈ ls, Silent u) ∧ '\n' ∉ t ∧ content t = t ∧ inked t = true ∧ t.head? = some '['

theorem opens_of {t s : List Char} (ls : List (List Char)) (h1 : s = fileText (ls ++ [t])) (h2 : ls.all (fun u => !u.contains '\n' && u.head? == some '$') = true)
    (h3 : '\n' ∉ t ∧ content t = t ∧ inked t = true ∧ t.head? = some '[') : Opens t s := by
  refine ⟨ls, h1, fun u hu => ?_, h3⟩
  have := List.all_eq_true.mp h2 u hu
  rw [Bool.and_eq_true] at this
  obtain ⟨g1, g2⟩ := this
  cases u with
  | nil => cases g2
  | cons a u =>
    have ha : a = '$' := by simpa using g2
    rw [ha]
    refine silent_dollar (fun h => ?_)
    have : (a :: u).contains '\n' = true := by simp [h]
    rw [this] at g1
    cases g1

theorem cellTitle_opens : Opens (T "[CELL]") cellTitle :=
  opens_of [T "$", T "$ ##########################################################", T "$                  CELL DEFINITION",
    T "$ ##########################################################", T "$"] (by decide +kernel) (by decide +kernel) (by decide +kernel)

theorem surfTitle_opens : Opens (T "[SURFACE]") surfTitle :=
  opens_of [T "$", T "$ ##########################################################", T "$                  SURFACE DEFINITION",
    T "$ ##########################################################", T "$"] (by decide +kernel) (by decide +kernel) (by decide +kernel)

theorem matTitle_opens : Opens (T "[MATERIAL]") matTitle :=
  opens_of [T "$", T "$ ##########################################################", T "$                  MATERIAL DEFINITION",
    T "$ ##########################################################", T "$ All material labels present in this model are listed below",
    T "$ Need to change the dummy material definition(H2O1) to appropriate one(s) ", T "$"] (by decide +kernel) (by decide +kernel) (by decide +kernel)

theorem volTitle_opens : Opens (T "[VOLUME] off") volTitle :=
  opens_of [T "$", T "$ ##########################################################", T "$                  VOLUME DEFINITION",
    T "$ ##########################################################", T "$ The CAD calculated volume(s) is/are quoted for solid cell(s).",
    T "$ Note that the auto-generated void volumes are not calculated,", T "$ set all at 1.0cm3 tentatively.", T "$"] (by decide +kernel) (by decide +kernel) (by decide +kernel)

/-! ## materials -/

theorem mat_row (m : Int) : NoTitle (T " M" ++ padRight 6 (Text.strInt m) ++ T " H 2 O 1") ∧ body [T " M" ++ padRight 6 (Text.strInt m) ++ T " H 2 O 1"]
    = [T " M" ++ padRight 6 (Text.strInt m) ++ T " H 2 O 1"] ∧ MatSays m (Wrap.wordsOf (T " M" ++ padRight 6 (Text.strInt m) ++ T " H 2 O 1")) := by
  have ht : Tidy (T " M" ++ padRight 6 (Text.strInt m) ++ T " H 2 O 1") := ((by decide : Tidy (T " M")).append (tidy_pad (tidy_int m) 6)).append (by decide)
  refine ⟨tidy_noTitle ht, body_tidy ?_, Text.strInt m, isNum_int m, ?_⟩
  · intro t h
    rw [List.mem_singleton] at h
    subst h
    exact ⟨ht, List.any_eq_true.mpr ⟨'M', by simp [T], by decide⟩⟩
  · have e : T " M" ++ padRight 6 (Text.strInt m) ++ T " H 2 O 1"
        = List.replicate 1 ' ' ++ ((('M' :: Text.strInt m) ++ List.replicate (6 - (Text.strInt m).length) ' ') ++ ' ' :: T "H 2 O 1") := by simp [T, padRight]
    rw [e, words_spaces, words_blank_mid, words_blank_end]
    have := words_token (w := 'M' :: Text.strInt m) (by simp) (by
      intro c hc
      rcases List.mem_cons.mp hc with rfl | hc
      · decide
      · exact Text.strInt_sep m c hc) [] (by simp)
    rw [List.append_nil] at this
    rw [this]
    rfl

theorem matCard_ok {f : Fmt} (hf : Formats f) (i : Input) {c : Cell} (hd : ∃ d, c.density = some d) (hi : '\n' ∉ infoText c) :
    ∃ ls, matCard f i c = .ok (fileText ls) ∧ (∀ t ∈ ls, NoTitle t) ∧ ∃ w, rows (body ls) = [w] ∧ MatSays c.material w := by
  obtain ⟨d, hd⟩ := hd
  obtain ⟨h1, h2, h3⟩ := mat_row c.material
  have nl2 : ∀ {a b : List Char}, '\n' ∉ a → '\n' ∉ b → '\n' ∉ a ++ b := fun h1 h2 h => (List.mem_append.mp h).elim h1 h2
  have nli : ∀ n : Int, '\n' ∉ Text.strInt n := fun n => (tidy_int n).nl
  have key : ∀ x : List Char, '\n' ∉ x → ∃ ls, ('$' :: x ++ '\n' :: (T " M" ++ padRight 6 (Text.strInt c.material) ++ T " H 2 O 1\n") = fileText ls) ∧ (∀ t ∈ ls, NoTitle t)
      ∧ ∃ w, rows (body ls) = [w] ∧ MatSays c.material w := by
    intro x hx
    refine ⟨['$' :: x, T " M" ++ padRight 6 (Text.strInt c.material) ++ T " H 2 O 1"], by simp [fileText, T], ?_, ?_⟩
    · intro t ht
      simp only [List.mem_cons, List.not_mem_nil, or_false] at ht
      rcases ht with rfl | rfl
      · exact (silent_dollar hx).noTitle
      · exact h1
    · refine ⟨_, ?_, h3⟩
      rw [body_cons, body_silent (ls := ['$' :: x]) (by
        intro t ht
        rw [List.mem_singleton] at ht
        rw [ht]
        exact silent_dollar hx), h2]
      rfl
  unfold matCard
  dsimp only
  split
  · obtain ⟨ls, g1, g2⟩ := key (T " Change dummyMat M" ++ Text.strInt c.material ++ T ", " ++ infoText c ++ T " c" ++ Text.strInt c.material ++ T " g/cm3 is assigned")
      (nl2 (nl2 (nl2 (nl2 (nl2 (nl2 (by decide) (nli _)) (by decide)) hi) (by decide)) (nli _)) (by decide))
    refine ⟨ls, ?_, g2⟩
    rw [← g1]
    simp [T]
  · rw [hd]
    dsimp only
    obtain ⟨ls, g1, g2⟩ := key (T " Change dummyMat M" ++ Text.strInt c.material ++ T " to " ++ infoText c ++ T ", Density = " ++ f.str (-1 * d) ++ T "g/cm3")
      (nl2 (nl2 (nl2 (nl2 (nl2 (nl2 (by decide) (nli _)) (by decide)) hi) (by decide)) (hf.str _)) (by decide))
    refine ⟨ls, ?_, g2⟩
    rw [← g1]
    simp [T]

theorem rows_append (a b : List (List Char)) : rows (a ++ b) = rows a ++ rows b := by simp [rows]

theorem matCards_ok {f : Fmt} (hf : Formats f) (i : Input) (mats : List Int) : ∀ (cs : List Cell) (seen : List Int),
    (∀ c ∈ cs, c.material ∈ mats → (∃ d, c.density = some d) ∧ '\n' ∉ infoText c) →
    ∃ ls ns, matCards f i mats seen cs = .ok (fileText ls) ∧ (∀ t ∈ ls, NoTitle t) ∧ List.Forall₂ MatSays ns (rows (body ls)) ∧ ns.Nodup
      ∧ ∀ m, m ∈ ns ↔ m ∈ mats ∧ m ∉ seen ∧ ∃ c ∈ cs, c.material = m
  | [], seen, _ => ⟨[], [], rfl, fun t h => (by cases h), .nil, .nil, by simp⟩
  | c :: cs, seen, h => by
    have htl := fun d hd => h d (List.mem_cons_of_mem c hd)
    unfold matCards
    by_cases hc : c.material ∈ mats ∧ c.material ∉ seen
    · rw [if_pos hc]
      obtain ⟨hd, hi⟩ := h c (by simp) hc.1
      obtain ⟨l1, g1, g2, w, g3, g4⟩ := matCard_ok hf i hd hi
      obtain ⟨l2, ns, k1, k2, k3, k4, k5⟩ := matCards_ok hf i mats cs (seen ++ [c.material]) htl
      rw [g1]
      dsimp only
      rw [k1]
      refine ⟨l1 ++ l2, c.material :: ns, by rw [fileText_append], fun t ht => (List.mem_append.mp ht).elim (g2 t) (k2 t), ?_, ?_, ?_⟩
      · rw [body_append, rows_append, g3]
        exact .cons g4 k3
      · refine List.nodup_cons.mpr ⟨fun hm => ?_, k4⟩
        have := ((k5 _).mp hm).2.1
        simp at this
      · intro m
        rw [List.mem_cons, k5]
        constructor
        · rintro (rfl | ⟨h1, h2, d, hd, he⟩)
          · exact ⟨hc.1, hc.2, c, by simp, rfl⟩
          · exact ⟨h1, fun h => h2 (by simp [h]), d, List.mem_cons_of_mem _ hd, he⟩
        · rintro ⟨h1, h2, d, hd, he⟩
          by_cases hm : m = c.material
          · exact Or.inl hm
          · right
            refine ⟨h1, by simp [h2, hm], d, ?_, he⟩
            rcases List.mem_cons.mp hd with rfl | hd
            · exact absurd he.symm hm
            · exact hd
    · rw [if_neg hc]
      obtain ⟨l2, ns, k1, k2, k3, k4, k5⟩ := matCards_ok hf i mats cs seen htl
      refine ⟨l2, ns, k1, k2, k3, k4, fun m => ?_⟩
      rw [k5]
      constructor
      · rintro ⟨h1, h2, d, hd, he⟩
        exact ⟨h1, h2, d, List.mem_cons_of_mem _ hd, he⟩
      · rintro ⟨h1, h2, d, hd, he⟩
        refine ⟨h1, h2, d, ?_, he⟩
        rcases List.mem_cons.mp hd with rfl | hd
        · exact absurd ⟨he ▸ h1, he ▸ h2⟩ hc
        · exact hd

theorem outs_same {f : Fmt} {i : Input} {uni : Bool} {cs : List Cell} {os : List Out} (h : List.Forall₂ (OutOk f i uni) cs os) :
    List.Forall₂ Same cs (os.map (·.cell)) := by
  induction h with
  | nil => exact .nil
  | cons h _ ih =>
    obtain ⟨_, _, _, _, _, _, hs, _⟩ := h
    exact .cons hs ih

theorem outs_mats {f : Fmt} {i : Input} {uni : Bool} {cs : List Cell} {os : List Out} (h : List.Forall₂ (OutOk f i uni) cs os) (m : Int) :
    m ∈ os.flatMap (·.mats) ↔ ∃ c ∈ cs, Uses i uni c m := by
  induction h with
  | nil => simp
  | cons h _ ih =>
    obtain ⟨_, _, _, _, _, _, _, hm⟩ := h
    rw [List.flatMap_cons, List.mem_append, ih, hm]
    simp

theorem same_left {cs cs' : List Cell} (h : List.Forall₂ Same cs cs') {c' : Cell} (hc : c' ∈ cs') : ∃ c ∈ cs, Same c c' := by
  induction h with
  | nil => cases hc
  | cons h _ ih =>
    rcases List.mem_cons.mp hc with rfl | hc
    · exact ⟨_, by simp, h⟩
    · obtain ⟨c, h1, h2⟩ := ih hc
      exact ⟨c, List.mem_cons_of_mem _ h1, h2⟩

theorem same_right {cs cs' : List Cell} (h : List.Forall₂ Same cs cs') {c : Cell} (hc : c ∈ cs) : ∃ c' ∈ cs', Same c c' := by
  induction h with
  | nil => cases hc
  | cons h _ ih =>
    rcases List.mem_cons.mp hc with rfl | hc
    · exact ⟨_, by simp, h⟩
    · obtain ⟨c, h1, h2⟩ := ih hc
      exact ⟨c, List.mem_cons_of_mem _ h1, h2⟩

/-- the section of materials -/
theorem mats_text {f : Fmt} {i : Input} {uni : Bool} (hg : Good f i uni) (hd : i.dummyMat = true) {os : List Out} (h : List.Forall₂ (OutOk f i uni) i.cells os) :
    ∃ ls ns, matBlock f i (os.flatMap (·.mats)) (os.map (·.cell)) = .ok (fileText ls) ∧ (∀ t ∈ ls, NoTitle t) ∧ List.Forall₂ MatSays ns (rows (body ls)) ∧ ns.Nodup
      ∧ ∀ m, m ∈ ns ↔ Used i uni m := by
  have hs := outs_same h
  have hm := outs_mats h
  have hne : ∀ m, (∃ c ∈ i.cells, Uses i uni c m) → m ≠ 0 ∧ ∃ c ∈ i.cells, c.material = m := by
    rintro m ⟨c, hc, _, ⟨h1, h2⟩ | ⟨_, d, hd⟩⟩
    · exact ⟨h1, c, hc, h2⟩
    · obtain ⟨h1, _, _, h2⟩ := hg.voidMat m d hd
      exact ⟨h1, h2⟩
  obtain ⟨ls, ns, g1, g2, g3, g4, g5⟩ := matCards_ok hg.formats i (os.flatMap (·.mats)) (os.map (·.cell)) [] (by
    intro c' hc' hmat
    obtain ⟨c, hc, hsame⟩ := same_left hs hc'
    have hgc := hg.cells c hc
    have hm0 : c.material ≠ 0 := by
      rw [← hsame.material]
      exact (hne _ ((hm _).mp hmat)).1
    obtain ⟨d, hdn, _⟩ := hgc.dense (hgc.comment.resolve_right hm0) hm0
    refine ⟨⟨d, by rw [hsame.density]; exact hdn⟩, ?_⟩
    unfold infoText
    cases hinf : c'.matInfo with
    | none => decide
    | some t =>
      rcases hsame.info t hinf with h | h
      · exact h
      · exact hgc.info hd t h)
  refine ⟨ls ++ [[]], ns, ?_, ?_, ?_, g4, ?_⟩
  · unfold matBlock
    rw [g1, fileText_append]
    rfl
  · intro t ht
    rcases List.mem_append.mp ht with ht | ht
    · exact g2 t ht
    · rw [List.mem_singleton] at ht
      rw [ht]
      exact silent_nil.noTitle
  · rw [body_append, body_silent (ls := [[]]) (fun t ht => by rw [List.mem_singleton] at ht; rw [ht]; exact silent_nil), List.append_nil]
    exact g3
  · intro m
    rw [g5, hm]
    constructor
    · rintro ⟨⟨c, hc, hu⟩, _⟩
      exact ⟨c, hc, hu⟩
    · rintro ⟨c, hc, hu⟩
      refine ⟨⟨c, hc, hu⟩, by simp, ?_⟩
      obtain ⟨_, d, hd1, hd2⟩ := hne m ⟨c, hc, hu⟩
      obtain ⟨d', h1, h2⟩ := same_right hs hd1
      exact ⟨d', h1, h2.material.trans hd2⟩

/-! ## volumes -/

theorem volBlock_same (f : Fmt) (i : Input) (uni : Bool) {cs cs' : List Cell} (h : List.Forall₂ Same cs cs') : volBlock f i uni cs' = volBlock f i uni cs := by
  unfold volBlock
  congr 1
  induction h with
  | nil => rfl
  | @cons a b _ _ h _ ih =>
    rw [List.filter_cons, List.filter_cons, h.id]
    by_cases hid : a.id.isSome = true
    · rw [if_pos hid, if_pos hid, List.flatMap_cons, List.flatMap_cons, ih]
      congr 1
      unfold volUni volRow volOne volText
      rw [h.label, h.void, h.volume]
    · rw [if_neg hid, if_neg hid]; exact ih

/-- lines of a table -/
def RowsOk (f : Fmt) (cs : List Cell) (s : List Char) : Prop :=
  ∃ ls, s = fileText ls ∧ (∀ t ∈ ls, NoTitle t) ∧ List.Forall₂ (VolumeSays f) cs (rows (body ls))

theorem rowsOk_nil (f : Fmt) : RowsOk f [] [] := ⟨[], rfl, fun t h => (by cases h), .nil⟩

theorem rowsOk_append {f : Fmt} {a b : List Cell} {s t : List Char} (h1 : RowsOk f a s) (h2 : RowsOk f b t) : RowsOk f (a ++ b) (s ++ t) := by
  obtain ⟨l1, g1, g2, g3⟩ := h1
  obtain ⟨l2, k1, k2, k3⟩ := h2
  refine ⟨l1 ++ l2, by rw [fileText_append, g1, k1], fun t ht => (List.mem_append.mp ht).elim (g2 t) (k2 t), ?_⟩
  rw [body_append, rows_append]
  exact List.rel_append g3 k3

theorem row_ok {f : Fmt} {c : Cell} {x : List Char} (hx : Tidy x) (hw : Wrap.wordsOf x = if c.void = true then ["1.0".toList] else Wrap.wordsOf (f.e (c.volume / 1000))) :
    RowsOk f [c] (tab6 ++ Text.strInt c.label ++ tab6 ++ x ++ ['\n']) := by
  have ht : Tidy (tab6 ++ Text.strInt c.label ++ tab6 ++ x) := (((by decide : Tidy tab6).append (tidy_int _)).append (by decide)).append hx
  refine ⟨[tab6 ++ Text.strInt c.label ++ tab6 ++ x], by simp [fileText], fun t h => ?_, ?_⟩
  · rw [List.mem_singleton] at h
    rw [h]
    exact tidy_noTitle ht
  · rw [body_tidy (by
      intro t h
      rw [List.mem_singleton] at h
      subst h
      refine ⟨ht, ?_⟩
      obtain ⟨h1, h2⟩ := Text.strInt_word c.label
      obtain ⟨a, as, he⟩ := List.exists_cons_of_ne_nil h1
      have ha := h2 a (by rw [he]; simp)
      exact List.any_eq_true.mpr ⟨a, by rw [he]; simp, by simpa using Text.digit_ne ha (by decide) (by decide)⟩)]
    refine .cons ⟨Text.strInt c.label, isNum_int _, ?_⟩ .nil
    rw [← hw]
    have e : tab6 ++ Text.strInt c.label ++ tab6 ++ x = List.replicate 6 ' ' ++ (Text.strInt c.label ++ (' ' :: (List.replicate 5 ' ' ++ x))) := by
      simp [tab6, List.replicate]
    rw [e, words_spaces, words_int _ _ (by
      intro d hd
      have : d = ' ' := by simpa using hd.symm
      rw [this]; decide)]
    congr 1

theorem volOne_ok (f : Fmt) {c : Cell} (hv : c.void = true) : RowsOk f [c] (volOne c) := by
  have := row_ok (f := f) (c := c) (x := T "1.0") (by decide) (by rw [if_pos hv]; decide)
  refine (congrArg _ ?_).mp this
  unfold volOne
  simp [T]

theorem volText_ok {f : Fmt} (hf : Formats f) {c : Cell} (hv : c.void = false) : RowsOk f [c] (volText f c) := by
  have ht : Tidy (f.e (c.volume / 1000)) := (hf.e _).tidy
  have := row_ok (f := f) (c := c) (x := f.e (c.volume / 1000)) ht (by rw [if_neg (by rw [hv]; decide)])
  refine (congrArg _ ?_).mp this
  unfold volText
  rw [show c.volume * (1 / 1000) = c.volume / 1000 by ring]

theorem rows_all {f : Fmt} {g : Cell → List Char} : ∀ {cs : List Cell}, (∀ c ∈ cs, RowsOk f [c] (g c)) → RowsOk f cs (cs.flatMap g)
  | [], _ => rowsOk_nil f
  | c :: cs, h => by
    rw [List.flatMap_cons]
    exact rowsOk_append (h c (by simp)) (rows_all fun d hd => h d (List.mem_cons_of_mem _ hd))

/-- the table of volumes -/
theorem vol_text {f : Fmt} {i : Input} {uni : Bool} (hg : Good f i uni) :
    ∃ ls ws, volBlock f i uni i.cells = fileText ls ∧ (∀ t ∈ ls, NoTitle t) ∧ rows (body ls) = ["reg".toList, "vol".toList] :: ws
      ∧ List.Forall₂ (VolumeSays f) (i.cells.filter (fun c => Shown uni c)) ws := by
  have key : RowsOk f (i.cells.filter (fun c => Shown uni c)) ((i.cells.filter (fun c => c.id.isSome)).flatMap (fun c => if uni then volUni f i c else volRow f c)) := by
    have e0 : i.cells.filter (fun c => c.id.isSome) = i.cells.filter (fun c => c.real) := counted_real i
    rw [e0]
    cases hu : uni with
    | false =>
      have : i.cells.filter (fun c => Shown false c) = i.cells.filter (fun c => c.real) := by
        apply List.filter_congr
        intro c _
        simp [Shown]
      rw [this]
      refine rows_all fun c _ => ?_
      simp only [Bool.false_eq_true, if_false]
      unfold volRow
      cases hv : c.void with
      | true => rw [if_pos rfl]; exact volOne_ok f hv
      | false => rw [if_neg (by decide)]; exact volText_ok hg.formats hv
    | true =>
      obtain ⟨so, vo, gr, h1, h2, h3, h4, h5⟩ := hg.numbered hu
      have e1 : i.cells.filter (fun c => Shown true c) = so ++ gr := by
        have e : i.cells.filter (fun c => Shown true c) = (i.cells.filter (fun c => c.real)).filter (fun c => c.void = false ∨ c.inner ∨ c.outer) := by
          rw [List.filter_filter]
          apply List.filter_congr
          intro c _
          simp [Shown, and_comm]
        rw [e, h1, List.filter_append, List.filter_append]
        have f1 : so.filter (fun c => decide (c.void = false ∨ c.inner ∨ c.outer)) = so := by
          rw [List.filter_eq_self]
          intro c hc
          simp [h2 c hc]
        have f2 : vo.filter (fun c => decide (c.void = false ∨ c.inner ∨ c.outer)) = [] := by
          rw [List.filter_eq_nil_iff]
          intro c hc
          obtain ⟨g1, g2, g3⟩ := h3 c hc
          simp [g1, g2, g3]
        have f3 : gr.filter (fun c => decide (c.void = false ∨ c.inner ∨ c.outer)) = gr := by
          rw [List.filter_eq_self]
          intro c hc
          rcases h4 with ⟨rfl, _⟩ | ⟨a, b, rfl, _, ha, _, hb⟩
          · cases hc
          · simp only [List.mem_cons, List.not_mem_nil, or_false] at hc
            rcases hc with rfl | rfl
            · simp [ha]
            · simp [hb]
        rw [f1, f2, f3]
        simp
      have hsc : solidCount i = so.length := by
        unfold solidCount
        rw [counted_real, h1, List.filter_append, List.filter_append]
        have f1 : so.filter (fun c => !c.void) = so := by
          rw [List.filter_eq_self]
          intro c hc
          simp [h2 c hc]
        have f2 : vo.filter (fun c => !c.void) = [] := by
          rw [List.filter_eq_nil_iff]
          intro c hc
          simp [(h3 c hc).1]
        have f3 : gr.filter (fun c => !c.void) = [] := by
          rcases h4 with ⟨rfl, _⟩ | ⟨a, b, rfl, ha, _, hb, _⟩
          · rfl
          · simp [ha, hb]
        rw [f1, f2, f3]
        simp
      have hcl : (counted i).length = so.length + vo.length + gr.length := by
        rw [counted_real, h1]
        simp [Nat.add_assoc]
      simp only [if_true]
      rw [h1, e1, List.flatMap_append, List.flatMap_append]
      refine rowsOk_append ?_ ?_
      · have r1 : RowsOk f so (so.flatMap (volUni f i)) := rows_all fun c hc => by
          unfold volUni
          have hv := h2 c hc
          rw [if_neg (by rw [hv]; simp), if_neg (by rw [hv]; simp)]
          exact volText_ok hg.formats hv
        have r2 : vo.flatMap (volUni f i) = [] := by
          rw [List.flatMap_eq_nil_iff]
          intro c hc
          have hv := (h3 c hc).1
          obtain ⟨j, hj, rfl⟩ := List.mem_iff_getElem.mp hc
          have hl := h5 (so.length + j) vo[j] (by
            rw [List.append_assoc, List.getElem?_append_right (by omega)]
            rw [List.getElem?_append_left (by omega)]
            simp [hj])
          have hgr : gr.length = 2 := by
            rcases h4 with ⟨_, rfl⟩ | ⟨a, b, rfl, _⟩
            · cases hc
            · rfl
          unfold volUni startVoid endVoid
          rw [hsc, hcl, hgr, hl]
          by_cases hse : (so.length : Int) + i.startCell = ((so.length + vo.length + 2 : Nat) : Int) + i.startCell - 3
          · rw [if_pos ⟨hv, hse⟩, if_pos (by push_cast at hse ⊢; omega)]
          · rw [if_neg (fun h => hse h.2), if_pos hv, if_pos (by push_cast at hse ⊢; omega)]
        rw [r2, List.append_nil]
        exact r1
      · refine rows_all fun c hc => ?_
        rcases h4 with ⟨rfl, _⟩ | ⟨a, b, rfl, hav, _, hbv, _⟩
        · cases hc
        · have hv : c.void = true := by
            simp only [List.mem_cons, List.not_mem_nil, or_false] at hc
            rcases hc with rfl | rfl
            · exact hav
            · exact hbv
          have hl : c.label = i.startCell + (so.length + vo.length) ∨ c.label = i.startCell + (so.length + vo.length + 1) := by
            simp only [List.mem_cons, List.not_mem_nil, or_false] at hc
            rcases hc with rfl | rfl
            · left
              have := h5 (so.length + vo.length) c (by rw [List.getElem?_append_right (by simp)]; simp)
              rw [this]; push_cast; ring
            · right
              have := h5 (so.length + vo.length + 1) c (by rw [List.getElem?_append_right (by simp)]; simp)
              rw [this]; push_cast; ring
          unfold volUni startVoid endVoid
          rw [hsc, hcl]
          simp only [List.length_cons, List.length_nil]
          by_cases hse : (so.length : Int) + i.startCell = ((so.length + vo.length + (0 + 1 + 1) : Nat) : Int) + i.startCell - 3
          · rw [if_pos ⟨hv, hse⟩, if_neg (by push_cast at hse ⊢; omega)]
            exact volOne_ok f hv
          · rw [if_neg (fun h => hse h.2), if_pos hv, if_neg (by push_cast at hse ⊢; omega)]
            exact volOne_ok f hv
  obtain ⟨ls, g1, g2, g3⟩ := key
  refine ⟨T "     reg     vol" :: ls, rows (body ls), ?_, ?_, ?_, g3⟩
  · unfold volBlock
    rw [g1, fileText_cons]
    simp [T]
  · intro t ht
    rcases List.mem_cons.mp ht with rfl | ht
    · exact tidy_noTitle (by decide)
    · exact g2 t ht
  · rw [body_cons, rows_append]
    rfl

/-! ## the file -/

theorem linesOf_fileText : ∀ (ls : List (List Char)), (∀ t ∈ ls, '\n' ∉ t) → Wrap.linesOf (fileText ls) = ls ++ [[]]
  | [], _ => rfl
  | t :: ls, h => by
    rw [fileText_cons, Wrap.linesOf_nl t (h t (by simp)), linesOf_fileText ls (fun u hu => h u (List.mem_cons_of_mem _ hu))]
    rfl

/-- a section -/
theorem split_section {pre b rest : List (List Char)} {t : List Char} (h1 : ∀ u ∈ pre, Silent u) (h2 : content t = t) (h3 : inked t = true) (h4 : t.head? = some '[')
    (h5 : ∀ u ∈ b, NoTitle u) : split (pre ++ t :: (b ++ rest)) = ([], (t, body b ++ (split rest).1) :: (split rest).2) := by
  rw [split_body pre _ (fun u hu => (h1 u hu).noTitle), body_silent h1, split_title h2 h3 h4, split_body b rest h5]
  rfl

theorem split_silent {ls : List (List Char)} (h : ∀ u ∈ ls, Silent u) : split ls = ([], []) := by
  have := split_body ls [] (fun u hu => (h u hu).noTitle)
  rw [List.append_nil, body_silent h] at this
  exact this

theorem blank_silent : Silent [' '] := ⟨by decide, rfl⟩

/-- a section of the file, and what comes after it -/
theorem section_text {t s : List Char} (ho : Opens t s) {b : List (List Char)} (hb : ∀ u ∈ b, NoTitle u) :
    ∃ ls, s ++ fileText b ++ T " \n" = fileText ls ∧ (∀ u ∈ ls, '\n' ∉ u)
      ∧ ∀ rest, (split rest).1 = [] → split (ls ++ rest) = ([], (t, body b) :: (split rest).2) := by
  obtain ⟨pre, rfl, h1, h2, h3, h4, h5⟩ := ho
  refine ⟨pre ++ t :: (b ++ [[' ']]), ?_, ?_, ?_⟩
  · rw [fileText_append, fileText_append, fileText_cons t (b ++ _), fileText_append b]
    simp [fileText, T]
  · intro u hu
    rcases List.mem_append.mp hu with hu | hu
    · exact (h1 u hu).1
    rcases List.mem_cons.mp hu with rfl | hu
    · exact h2
    rcases List.mem_append.mp hu with hu | hu
    · exact (hb u hu).1
    · rw [List.mem_singleton] at hu
      rw [hu]; decide
  · intro rest hr
    have e : pre ++ t :: (b ++ [[' ']]) ++ rest = pre ++ t :: (b ++ ([' '] :: rest)) := by simp
    rw [e, split_section h1 h3 h4 h5 hb]
    have : split ([' '] :: rest) = split rest := rfl
    rw [this, hr, List.append_nil]

theorem writePhits_ok {f : Fmt} {i : Input} {uni : Bool} (hg : Good f i uni) {text : List Char} (ht : i.stepText = some text) (hu : uni = true ↔ Unify text)
    (r : Nat) (hr : 30 ≤ r) :
    ∃ K, ∀ k, K ≤ k → ∃ s cs', writePhits f r k i = .ok (s, cs') ∧ List.Forall₂ Same i.cells cs' ∧ Says f i uni (Wrap.linesOf s) := by
  obtain ⟨K, hK⟩ := writeCells_ok hg r hr i.cells (fun _ h => h)
  refine ⟨K, fun k hk => ?_⟩
  obtain ⟨os, h1, h2⟩ := hK k hk
  obtain ⟨cl, cw, c1, c2, c3, c4⟩ := cells_text h2
  obtain ⟨sl, sw, s1, s2, s3, s4⟩ := surfaces_text i.surfaces hg.surfaces
  obtain ⟨hl, he, hs⟩ := header_silent hg
  obtain ⟨L1, a1, a2, a3⟩ := section_text cellTitle_opens c2
  obtain ⟨L2, b1, b2, b3⟩ := section_text surfTitle_opens s2
  -- materials
  obtain ⟨L3, ms, m1, m2, m3, m4⟩ : ∃ L3 ms, matPart f i os = .ok (fileText L3) ∧ (∀ u ∈ L3, '\n' ∉ u)
      ∧ (∀ rest, (split rest).1 = [] → split (L3 ++ rest) = ([], (if i.dummyMat = true then [("[MATERIAL]".toList, ms)] else []) ++ (split rest).2))
      ∧ (i.dummyMat = true → ∃ ns, List.Forall₂ MatSays ns (rows ms) ∧ ns.Nodup ∧ ∀ m, m ∈ ns ↔ Used i uni m) := by
    unfold matPart
    cases hd : i.dummyMat with
    | false => exact ⟨[], [], rfl, fun u h => (by cases h), fun rest hr => Prod.ext hr rfl, fun h => (by cases h)⟩
    | true =>
      obtain ⟨ls, ns, g1, g2, g3, g4, g5⟩ := mats_text hg hd h2
      obtain ⟨L, k1, k2, k3⟩ := section_text matTitle_opens g2
      refine ⟨L, body ls, ?_, k2, fun rest hr => ?_, fun _ => ⟨ns, g3, g4, g5⟩⟩
      · rw [if_pos rfl, g1]
        dsimp only
        rw [k1]
      · rw [if_pos rfl]
        exact k3 rest hr
  -- volumes
  obtain ⟨L4, vs, v1, v2, v3, v4⟩ : ∃ L4 vs, volPart f i uni os = fileText L4 ∧ (∀ u ∈ L4, '\n' ∉ u)
      ∧ (∀ rest, (split rest).1 = [] → split (L4 ++ rest) = ([], (if i.volCARD = true then [("[VOLUME] off".toList, vs)] else []) ++ (split rest).2))
      ∧ (i.volCARD = true → ∃ ws, rows vs = ["reg".toList, "vol".toList] :: ws ∧ List.Forall₂ (VolumeSays f) (i.cells.filter (fun c => Shown uni c)) ws) := by
    unfold volPart
    cases hd : i.volCARD with
    | false => exact ⟨[], [], rfl, fun u h => (by cases h), fun rest hr => Prod.ext hr rfl, fun h => (by cases h)⟩
    | true =>
      obtain ⟨ls, ws, g1, g2, g3, g4⟩ := vol_text hg
      obtain ⟨L, k1, k2, k3⟩ := section_text volTitle_opens g2
      refine ⟨L, body ls, ?_, k2, fun rest hr => ?_, fun _ => ⟨ws, g3, g4⟩⟩
      · rw [if_pos rfl, volBlock_same f i uni (outs_same h2), g1, k1]
      · rw [if_pos rfl]
        exact k3 rest hr
  have e : header i ++ cellTitle ++ os.flatMap (·.text) ++ T " \n" ++ surfTitle ++ fileText sl ++ T " \n" ++ fileText L3 ++ volPart f i uni os
      = fileText (hl ++ (L1 ++ (L2 ++ (L3 ++ L4)))) := by
    rw [he, c1, v1, fileText_append, fileText_append, fileText_append, fileText_append, ← a1, ← b1]
    simp only [List.append_assoc]
  refine ⟨header i ++ cellTitle ++ os.flatMap (·.text) ++ T " \n" ++ surfTitle ++ fileText sl ++ T " \n" ++ fileText L3 ++ volPart f i uni os, os.map (·.cell), ?_, outs_same h2, ?_⟩
  · unfold writePhits
    rw [unified_eq ht hu]
    dsimp only
    rw [h1]
    dsimp only
    rw [s1]
    dsimp only
    rw [m1]
  · rw [e, linesOf_fileText _ (by
      intro u hu
      rcases List.mem_append.mp hu with hu | hu
      · exact (hs u hu).1
      rcases List.mem_append.mp hu with hu | hu
      · exact a2 u hu
      rcases List.mem_append.mp hu with hu | hu
      · exact b2 u hu
      rcases List.mem_append.mp hu with hu | hu
      · exact m2 u hu
      · exact v2 u hu)]
    have z0 : split [[]] = ([], []) := rfl
    have z4 := v3 [[]] rfl
    rw [z0, List.append_nil] at z4
    have z3 := m3 (L4 ++ [[]]) (by rw [z4])
    rw [z4] at z3
    have z2 := b3 (L3 ++ (L4 ++ [[]])) (by rw [z3])
    rw [z3] at z2
    have z1 := a3 (L2 ++ (L3 ++ (L4 ++ [[]]))) (by rw [z2])
    rw [z2] at z1
    refine ⟨body cl, body sl, ms, vs, ?_, ⟨cw, c3, c4⟩, ⟨sw, s3, s4⟩, m4, v4⟩
    have z5 : hl ++ (L1 ++ (L2 ++ (L3 ++ L4))) ++ [[]] = hl ++ (L1 ++ (L2 ++ (L3 ++ (L4 ++ [[]])))) := by simp
    rw [z5, split_body hl _ (fun u hu => (hs u hu).noTitle), z1, body_silent hs]
    rfl

end Geouned.PhitsFile
