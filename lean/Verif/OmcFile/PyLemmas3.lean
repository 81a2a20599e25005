import Verif.OmcFile.PyLemmas2
/-! # Lemmas for C107: the lines of the file -/
namespace Geouned.OmcFile

open Geouned.Text

/-! ## the statements, explicitly -/

def matS (m : Int) : List PyTok := call ('M' :: strInt m) "openmc.Material".toList [[W "name", .sign '=', .str ('M' :: strInt m)]]

def surfS (b : Bool) (s : Surf) (args : List PyTok) : List PyTok :=
  call ('S' :: strInt s.index) ("openmc.".toList ++ s.ty) (args :: if b then [[W "boundary_type", .sign '=', .str "vacuum".toList]] else [])

def cellS (c : Cell) (ps : List PTok) : List PyTok :=
  call ('C' :: strInt c.label) "openmc.Cell".toList ([W "name", .sign '=', .str (cellName c)]
    :: ((if c.material = 0 then [] else [[W "fill", .sign '=', .word ('M' :: strInt c.material)]]) ++ [W "region" :: .sign '=' :: ps.flatMap pyToks]))

theorem strInt_str {n : Int} (h : 0 ≤ n) {x q : Char} (hx : x.isAlpha = true) (hq : q = '"' ∨ q = '\'') : StrChars q (x :: strInt n) := by
  intro c hc
  have : c.isAlphanum = true := by
    rcases List.mem_cons.mp hc with rfl | hc
    · simp [Char.isAlphanum, hx]
    · simp [Char.isAlphanum, strInt_digits h c hc]
  refine ⟨?_, ?_, ?_, ?_, ?_⟩
  · rintro rfl
    rcases hq with rfl | rfl <;> exact absurd this (by decide)
  · rintro rfl; exact absurd this (by decide)
  · rintro rfl; exact absurd this (by decide)
  · rintro rfl; exact absurd this (by decide)
  · intro h0
    obtain rfl : c = Char.ofNat 0 := Char.ext (UInt32.toNat_inj.mp h0)
    exact absurd this (by decide)

/-- `x = cls(args)`: one line -/
theorem call_lx {x cls : List Char} {argText : List Char} {args : List (List PyTok)} (hx : Lx x [.word x]) (hc : cls ≠ [] ∧ ∀ c ∈ cls, wordChar c = true)
    (ha : Lx argText (List.intercalate [.sign ','] args)) : Lx (x ++ ' ' :: '=' :: ' ' :: (cls ++ '(' :: (argText ++ [')']))) (call x cls args) := by
  have h1 : Lx (argText ++ ')' :: []) (List.intercalate [.sign ','] args ++ .sign ')' :: []) :=
    Lx_sign (by decide) (by decide) (by decide) (by decide) (by decide) ha rfl
  have h2 : Lx (cls ++ '(' :: (argText ++ [')'])) ([.word cls] ++ .sign '(' :: _) := Lx_sign (by decide) (by decide) (by decide) (by decide) (by decide) (Lx_word hc.1 hc.2) h1
  have h3 : Lx ([] ++ '=' :: ' ' :: (cls ++ '(' :: (argText ++ [')']))) ([] ++ .sign '=' :: _) :=
    Lx_sign (by decide) (by decide) (by decide) (by decide) (by decide) rfl (Lx_blank h2)
  have h4 := Lx_append hx (fun c hc => by simp at hc; rw [← hc]; decide) (Lx_blank h3)
  exact h4

/-- the same, as part of the file -/
theorem call_file {x cls : List Char} {argText : List Char} {args : List (List PyTok)} (hx : Lx x [.word x]) (hx' : ∃ c, x.head? = some c ∧ wordChar c = true)
    (hc : cls ≠ [] ∧ ∀ c ∈ cls, wordChar c = true) (ha : Lx argText (List.intercalate [.sign ','] args)) :
    PyFile (x ++ ' ' :: '=' :: ' ' :: (cls ++ '(' :: (argText ++ [')', '\n']))) [call x cls args] := by
  have h := pyFile_line (call_lx hx hc ha) (by
    obtain ⟨c, h1, h2⟩ := hx'
    refine ⟨c, ?_, h2⟩
    cases x with
    | nil => cases h1
    | cons a x => exact h1) (by simp [call])
  have e : x ++ ' ' :: '=' :: ' ' :: (cls ++ '(' :: (argText ++ [')'])) ++ ['\n'] = x ++ ' ' :: '=' :: ' ' :: (cls ++ '(' :: (argText ++ [')', '\n'])) := by simp
  rw [← e]
  exact h

/-- `key=value` -/
theorem key_lx {k v : List Char} {ts : List PyTok} (hk : k ≠ [] ∧ ∀ c ∈ k, wordChar c = true) (hv : Lx v ts) : Lx (k ++ '=' :: v) (.word k :: .sign '=' :: ts) :=
  Lx_sign (by decide) (by decide) (by decide) (by decide) (by decide) (Lx_word hk.1 hk.2) hv

/-- `a, b` -/
theorem comma_lx {a b : List Char} {ts : List PyTok} {us : List (List PyTok)} (hu : us ≠ []) (ha : Lx a ts) (hb : Lx b (List.intercalate [.sign ','] us)) :
    Lx (a ++ ',' :: ' ' :: b) (List.intercalate [.sign ','] (ts :: us)) := by
  have := Lx_sign (c := ',') (by decide) (by decide) (by decide) (by decide) (by decide) ha (Lx_blank hb)
  cases us with
  | nil => exact absurd rfl hu
  | cons u us => simpa [List.intercalate, List.intersperse] using this

theorem inter_single {ts : List PyTok} : List.intercalate [PyTok.sign ','] [ts] = ts := by simp [List.intercalate]

theorem M_lx {n : Int} (h : 0 ≤ n) : Lx ('M' :: strInt n) [.word ('M' :: strInt n)] := name_lx (by decide) h
theorem S_lx {n : Int} (h : 0 ≤ n) : Lx ('S' :: strInt n) [.word ('S' :: strInt n)] := name_lx (by decide) h
theorem C_lx {n : Int} (h : 0 ≤ n) : Lx ('C' :: strInt n) [.word ('C' :: strInt n)] := name_lx (by decide) h

/-- a list of names -/
theorem names_lx : ∀ {l : List (List Char)}, (∀ w ∈ l, Lx w [.word w]) → Lx ('[' :: (join (T ", ") l ++ [']'])) (names l) := by
  have key : ∀ l : List (List Char), (∀ w ∈ l, Lx w [.word w]) → Lx (join (T ", ") l) (List.intercalate [.sign ','] (l.map (fun w => [.word w]))) := by
    intro l
    induction l with
    | nil => intro _; rfl
    | cons w l ih =>
      intro h
      cases l with
      | nil => simpa [join, List.intercalate] using h w (by simp)
      | cons w' l =>
        have := ih (fun w hw => h w (List.mem_cons_of_mem _ hw))
        exact comma_lx (a := w) (b := join (T ", ") (w' :: l)) (ts := [.word w]) (by simp) (h w (by simp)) this
  intro l h
  have h1 := Lx_sign (c := ']') (by decide) (by decide) (by decide) (by decide) (by decide) (key l h) (b := []) (us := []) rfl
  exact Lx_sign (c := '[') (by decide) (by decide) (by decide) (by decide) (by decide) (a := []) (ts := []) rfl h1

/-! ## the parts of the file -/

theorem mat_file {m : Int} (h : 0 ≤ m) : PyFile ('M' :: strInt m ++ T " = openmc.Material(name='M" ++ strInt m ++ T "')\n") [matS m] := by
  have h1 := key_lx (k := "name".toList) (by decide) (Lx_str (q := '\'') (Or.inr rfl) (strInt_str h (x := 'M') (by decide) (Or.inr rfl)))
  rw [← inter_single (ts := _ :: _)] at h1
  have h2 := call_file (x := 'M' :: strInt m) (M_lx h) ⟨_, rfl, by decide⟩ (cls := "openmc.Material".toList) (by decide) h1
  have a1 : T " = openmc.Material(name='M" = ' ' :: '=' :: ' ' :: ("openmc.Material".toList ++ '(' :: ("name".toList ++ ['=', '\'', 'M'])) := by decide
  have a2 : T "')\n" = ['\'', ')', '\n'] := by decide
  rw [a1, a2]
  generalize e1 : "openmc.Material".toList = x1 at h2 ⊢
  generalize e2 : "name".toList = x2 at h2 ⊢
  have hm : matS m = call ('M' :: strInt m) x1 [[.word x2, .sign '=', .str ('M' :: strInt m)]] := by rw [← e1, ← e2]; rfl
  rw [hm]
  convert h2 using 1
  simp

theorem surf_file {s : Surf} (h : PySurf s) (b : Bool) : ∃ args, lexGo none [] s.coeffs = some args ∧ (∀ w, ObjName w → .word w ∉ args) ∧ PyFile (pySurface b s) [surfS b s args] := by
  obtain ⟨h1, h2, h3, -, args, h4, h5⟩ := h
  refine ⟨args, h4, h5, ?_⟩
  have hc : "openmc.".toList ++ s.ty ≠ [] ∧ ∀ c ∈ "openmc.".toList ++ s.ty, wordChar c = true := by
    refine ⟨by simp, fun c hc => ?_⟩
    rcases List.mem_append.mp hc with hc | hc
    · exact (by decide : ∀ c ∈ "openmc.".toList, wordChar c = true) c hc
    · exact h3 c hc
  have a1 : T " = openmc." = ' ' :: '=' :: ' ' :: "openmc.".toList := by decide
  unfold pySurface surfS
  cases b
  · have h6 : Lx s.coeffs (List.intercalate [.sign ','] [args]) := by rw [inter_single]; exact h4
    have h7 := call_file (S_lx h1) ⟨_, rfl, by decide⟩ hc h6
    have a2 : T ")\n" = [')', '\n'] := by decide
    rw [a1]
    simp only [Bool.false_eq_true, if_false]
    rw [a2]
    generalize "openmc.".toList = x1 at h7 ⊢
    convert h7 using 1
    simp
  · have h8 := key_lx (k := "boundary_type".toList) (by decide) (Lx_str (q := '"') (Or.inl rfl) (s := "vacuum".toList) (by unfold StrChars; decide))
    have h6 := comma_lx (us := [[W "boundary_type", .sign '=', .str "vacuum".toList]]) (by simp) h4 (by rw [inter_single]; exact h8)
    have h7 := call_file (S_lx h1) ⟨_, rfl, by decide⟩ hc h6
    have a2 : T ", boundary_type=\"vacuum\")\n" = ',' :: ' ' :: ("boundary_type".toList ++ '=' :: '"' :: ("vacuum".toList ++ ['"', ')', '\n'])) := by decide
    rw [a1]
    simp only [if_true]
    rw [a2]
    generalize W "boundary_type" = x4 at h7 ⊢
    generalize "openmc.".toList = x1 at h7 ⊢
    generalize "boundary_type".toList = x2 at h7 ⊢
    generalize "vacuum".toList = x3 at h7 ⊢
    convert h7 using 1
    simp

theorem cell_file {r : Nat} {c : Cell} (hid : c.id ≠ none) (hm : 0 ≤ c.material) (hg : GoodDef r c.definition) (hp : PlainBreaks c.comments) (hs : PyStr c.comments) (hl : 0 ≤ c.label) :
    ∃ t ps, pyCell r c = .ok t ∧ PyFile t [cellS c ps] ∧ (∀ σ b, PyRegion σ (ps.flatMap pyToks) b ↔ b = c.definition.sem σ) ∧ ∀ neg k, .surf neg k ∈ ps → c.definition.Occurs k := by
  obtain ⟨k, hk⟩ := Option.ne_none_iff_exists'.mp hid
  obtain ⟨ps, h1, h2, h3⟩ := py_region hg
  have hname : StrChars '"' (cellName c) := by
    intro x hx
    rcases name_chars hp hx with rfl | rfl | ⟨h, hn⟩
    · decide
    · decide
    · refine ⟨(hs x h).1, (hs x h).2.1, hn, ?_, (hs x h).2.2⟩
      rintro rfl
      exact hp _ h (by decide)
  refine ⟨_, ps, by unfold pyCell; rw [hk]; dsimp only; rw [h1], ?_, h2, h3⟩
  have g1 := key_lx (k := "name".toList) (by decide) (Lx_str (q := '"') (Or.inl rfl) hname)
  have g2 := key_lx (k := "region".toList) (by decide) (region_lx ps)
  rw [← inter_single (ts := .word "region".toList :: _)] at g2
  have a1 : T " = openmc.Cell(name=\"" = ' ' :: '=' :: ' ' :: ("openmc.Cell".toList ++ '(' :: ("name".toList ++ ['=', '"'])) := by decide
  have a2 : T "\"" = ['"'] := by decide
  have a3 : T ", region=" = ',' :: ' ' :: ("region".toList ++ ['=']) := by decide
  have a4 : T ")\n" = [')', '\n'] := by decide
  have a5 : T ", fill=M" = ',' :: ' ' :: ("fill".toList ++ ['=', 'M']) := by decide
  rw [a1, a2, a3, a4, a5]
  unfold cellS
  have w1 : W "name" = .word "name".toList := rfl
  have w2 : W "region" = .word "region".toList := rfl
  have w3 : W "fill" = .word "fill".toList := rfl
  rw [w1, w2, w3]
  by_cases h0 : c.material = 0
  · have g3 := comma_lx (by simp) g1 g2
    have g4 := call_file (C_lx hl) ⟨_, rfl, by decide⟩ (cls := "openmc.Cell".toList) (by decide) g3
    simp only [h0, if_true, List.nil_append, List.append_nil]
    generalize "openmc.Cell".toList = x1 at g4 ⊢
    generalize "name".toList = x2 at g4 ⊢
    generalize "region".toList = x3 at g4 ⊢
    generalize "fill".toList = x5 at g4 ⊢
    convert g4 using 1
    simp
  · have g5 := key_lx (k := "fill".toList) (by decide) (M_lx hm)
    have g3 := comma_lx (by simp) g1 (comma_lx (by simp) g5 g2)
    have g4 := call_file (C_lx hl) ⟨_, rfl, by decide⟩ (cls := "openmc.Cell".toList) (by decide) g3
    simp only [h0, if_false]
    generalize "openmc.Cell".toList = x1 at g4 ⊢
    generalize "name".toList = x2 at g4 ⊢
    generalize "region".toList = x3 at g4 ⊢
    generalize "fill".toList = x5 at g4 ⊢
    convert g4 using 1
    all_goals simp

end Geouned.OmcFile
