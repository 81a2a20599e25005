import Verif.OmcFile.ReadSpec
import Verif.OmcFile.Lemmas2
import Verif.McnpFile.ReadSurf
/-!
# Lemmas for C106
-/
namespace Geouned.OmcFile.Read

open CellText (Arith pyInt pySplit floats)

theorem toInt_num {w : List Char} {n : Int} (h : IsNum w n) : toInt w = .ok n := by
  have key : pyInt w = .ok n := by
    obtain ⟨d, hd, ⟨rfl, h1⟩ | ⟨rfl, h1⟩⟩ := McnpFile.isNum_digits (h : McnpFile.IsNum w n)
    · rw [CellText.pyInt_digits hd, h1]
    · unfold pyInt
      have : CellText.matchSign ('-' :: d) = (['-'], d) := by simp [CellText.matchSign]
      rw [this]
      dsimp only
      rw [if_pos ⟨hd.1, hd.2⟩, if_pos rfl, h1]
  unfold toInt
  rw [key]

theorem void_not_num (n : Int) : ¬ IsNum "void".toList n := by
  intro h
  obtain ⟨d, hd, ⟨e, -⟩ | ⟨e, -⟩⟩ := McnpFile.isNum_digits (h : McnpFile.IsNum _ n)
  · rw [← e] at hd
    exact absurd (hd.2 'v' (by decide)) (by decide)
  · exact absurd e (by
      have : "void".toList = ['v', 'o', 'i', 'd'] := by decide
      rw [this]
      simp)

theorem readCell_of {c : Cell} {e : Elem} (h : CellSays c e) : ∃ k, ∀ {V : Type} (F : Arith V), processCard F e = .ok (.cell k) ∧ CellRead c k := by
  obtain ⟨label, mat, name, region, rfl, h1, h2, -, h3⟩ := h
  refine ⟨⟨c.label, some c.material, 0, none, region.map (fun c => if c = '|' then ':' else c)⟩, fun F => ⟨?_, rfl, rfl, rfl, rfl, h3⟩⟩
  have n1 : attr [("id".toList, label), ("material".toList, mat), ("name".toList, name), ("region".toList, region), ("universe".toList, ['1'])] "id".toList = some label := by
    simp only [attr, List.find?]; rfl
  have n2 : attr [("id".toList, label), ("material".toList, mat), ("name".toList, name), ("region".toList, region), ("universe".toList, ['1'])] "material".toList = some mat := by
    simp only [attr, List.find?]; rfl
  have n3 : attr [("id".toList, label), ("material".toList, mat), ("name".toList, name), ("region".toList, region), ("universe".toList, ['1'])] "region".toList = some region := by
    simp only [attr, List.find?]; rfl
  have n4 : attr [("id".toList, label), ("material".toList, mat), ("name".toList, name), ("region".toList, region), ("universe".toList, ['1'])] "universe".toList = some ['1'] := by
    simp only [attr, List.find?]; rfl
  have n5 : attr [("id".toList, label), ("material".toList, mat), ("name".toList, name), ("region".toList, region), ("universe".toList, ['1'])] "fill".toList = none := by
    simp only [attr, List.find?]; rfl
  have hone : toInt ['1'] = .ok 1 := by decide
  have hmat : readMat [("id".toList, label), ("material".toList, mat), ("name".toList, name), ("region".toList, region), ("universe".toList, ['1'])] = .ok (some c.material) := by
    unfold readMat
    rw [n2]
    dsimp only
    by_cases h0 : c.material = 0
    · rw [if_pos h0] at h2
      rw [if_pos h2, h0]
    · rw [if_neg h0] at h2
      rw [if_neg (fun e => void_not_num _ (e ▸ h2)), toInt_num h2]
      rfl
  unfold processCard
  rw [if_pos rfl]
  dsimp only
  unfold readCell
  rw [n1, hmat]
  dsimp only
  rw [toInt_num h1, n3]
  unfold optInt
  rw [n4, n5]
  dsimp only
  rw [hone]
  rfl

theorem floats_words {V : Type} {F : Arith V} : ∀ {ws : List (List Char)}, (∀ w ∈ ws, ∃ v, F.flt w = some v) →
    ∃ l, floats F ws = .ok l ∧ List.Forall₂ (fun w v => F.flt w = some v) ws l
  | [], _ => ⟨[], rfl, .nil⟩
  | w :: ws, h => by
    obtain ⟨v, hv⟩ := h w List.mem_cons_self
    obtain ⟨l, h1, h2⟩ := floats_words (fun w hw => h w (List.mem_cons_of_mem _ hw))
    refine ⟨v :: l, ?_, .cons hv h2⟩
    unfold floats CellText.pyFloat
    rw [hv, h1]
    rfl

theorem readSurf_of {V : Type} {F : Arith V} {b : Bool} {s : Surf} {e : Elem} (h : SurfSays b s e) (hn : Numbers F s) (hb : ∀ c ∈ s.coeffs, ws c = true → c = ' ') :
    ∃ k, processCard F e = .ok (.surface k) ∧ SurfRead F s k := by
  obtain ⟨index, h1, rfl⟩ := h
  obtain ⟨ws, h2, h3⟩ := hn
  obtain ⟨l, h4, h5⟩ := floats_words h3
  refine ⟨⟨s.index, s.ty, l⟩, ?_, rfl, rfl, ws, h2, h5⟩
  have hnl : '\n' ∉ s.coeffs := fun hc => absurd (hb _ hc (by decide)) (by decide)
  have hsp := SurfText.spelled_split h2 hnl
  generalize hx : (if b = true then [("boundary".toList, "vacuum".toList)] else []) = x
  have n1 : attr ([("id".toList, index), ("type".toList, s.ty), ("coeffs".toList, s.coeffs)] ++ x) "id".toList = some index := by
    simp only [attr, List.find?, List.cons_append]; rfl
  have n2 : attr ([("id".toList, index), ("type".toList, s.ty), ("coeffs".toList, s.coeffs)] ++ x) "type".toList = some s.ty := by
    simp only [attr, List.find?, List.cons_append]; rfl
  have n3 : attr ([("id".toList, index), ("type".toList, s.ty), ("coeffs".toList, s.coeffs)] ++ x) "coeffs".toList = some s.coeffs := by
    simp only [attr, List.find?, List.cons_append]; rfl
  unfold processCard
  dsimp only
  rw [if_neg (by decide), if_pos rfl]
  unfold readSurf
  rw [n1]
  dsimp only
  rw [n2]
  dsimp only
  rw [n3]
  dsimp only
  rw [toInt_num h1, hsp, h4]
  rfl

theorem getCards_append {V : Type} {F : Arith V} : ∀ {a b : List Elem} {x y : List (Card V)}, getCards F a = .ok x → getCards F b = .ok y → getCards F (a ++ b) = .ok (x ++ y)
  | [], b, x, y, h1, h2 => by
    obtain rfl : x = [] := by cases h1; rfl
    exact h2
  | e :: a, b, x, y, h1, h2 => by
    unfold getCards at h1
    cases h3 : processCard F e with
    | error err => rw [h3] at h1; cases h1
    | ok c =>
      rw [h3] at h1
      simp only [bind, Except.bind] at h1
      cases h4 : getCards F a with
      | error err => rw [h4] at h1; cases h1
      | ok l =>
        rw [h4] at h1
        obtain rfl : c :: l = x := by injection h1
        rw [List.cons_append]
        unfold getCards
        rw [h3, getCards_append h4 h2]
        rfl

theorem getCells_of {V : Type} (F : Arith V) : ∀ {cs : List Cell} {es : List Elem}, List.Forall₂ CellSays cs es → ∃ ks, getCards F es = .ok (ks.map .cell) ∧ List.Forall₂ CellRead cs ks
  | _, _, .nil => ⟨[], rfl, .nil⟩
  | _, _, .cons h h' => by
    obtain ⟨k, hk⟩ := readCell_of h
    obtain ⟨ks, h1, h2⟩ := getCells_of F h'
    refine ⟨k :: ks, ?_, .cons (hk F).2 h2⟩
    unfold getCards
    rw [(hk F).1, h1]
    rfl

theorem getSurfs_of {V : Type} {F : Arith V} {b : Bool} : ∀ {ss : List Surf} {es : List Elem}, List.Forall₂ (SurfSays b) ss es → (∀ s ∈ ss, Numbers F s) →
    (∀ s ∈ ss, ∀ c ∈ s.coeffs, ws c = true → c = ' ') → ∃ ks, getCards F es = .ok (ks.map .surface) ∧ List.Forall₂ (SurfRead F) ss ks
  | _, _, .nil, _, _ => ⟨[], rfl, .nil⟩
  | _, _, .cons h h', hn, hb => by
    obtain ⟨k, h0, h0'⟩ := readSurf_of h (hn _ List.mem_cons_self) (hb _ List.mem_cons_self)
    obtain ⟨ks, h1, h2⟩ := getSurfs_of h' (fun s hs => hn s (List.mem_cons_of_mem _ hs)) (fun s hs => hb s (List.mem_cons_of_mem _ hs))
    refine ⟨k :: ks, ?_, .cons h0' h2⟩
    unfold getCards
    rw [h0, h1]
    rfl

end Geouned.OmcFile.Read
