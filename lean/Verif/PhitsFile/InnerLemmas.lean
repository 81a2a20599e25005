import Verif.PhitsFile.CellLemmas
import Verif.Text.WrapProps
/-!
# Lemmas for C110: the card of the inner void
-/
namespace Geouned.PhitsFile

open Geouned.McnpFile
open Geouned.Card (fileText)

/-- the complements of `m` cells -/
def hashList (a : Int) (m : Nat) : List Char := (List.range m).flatMap (fun (n : Nat) => ' ' :: '#' :: Text.strInt (a + n))

theorem hashes_eq (i : Input) : hashes i = hashList i.startCell ((counted i).filter (fun c => !c.void)).length := by
  unfold hashes hashList startVoid solidCount
  generalize ((counted i).filter (fun c => !c.void)).length = m
  split
  · next h =>
    have : m = 1 := by omega
    subst this
    simp
  · congr 2
    omega

theorem hash_words : ∀ (m : Nat) (a : Int), Wrap.wordsOf (hashList a m) = (List.range m).map (fun (n : Nat) => '#' :: Text.strInt (a + n))
  | 0, a => rfl
  | m + 1, a => by
    have e : hashList a (m + 1) = hashList a m ++ ' ' :: ('#' :: Text.strInt (a + m)) := by
      unfold hashList
      rw [List.range_succ, List.flatMap_append]
      simp
    rw [e, words_blank_mid, hash_words m a, List.range_succ, List.map_append]
    congr 1
    have := words_token (w := '#' :: Text.strInt (a + m)) (by simp) (by
      intro c hc
      rcases List.mem_cons.mp hc with rfl | hc
      · decide
      · exact Text.strInt_sep _ c hc) [] (by simp)
    rw [List.append_nil] at this
    rw [this]
    rfl

theorem hash_chars {a : Int} {m : Nat} {c : Char} (h : c ∈ hashList a m) : c = ' ' ∨ c = '#' ∨ c.isDigit = true ∨ c = '-' := by
  unfold hashList at h
  obtain ⟨n, _, hn⟩ := List.mem_flatMap.mp h
  rcases List.mem_cons.mp hn with h | hn
  · exact Or.inl h
  rcases List.mem_cons.mp hn with h | hn
  · exact Or.inr (Or.inl h)
  · exact Or.inr (Or.inr ((Text.strInt_word _).2 c hn))

theorem room_plain {d : Nat} {s : List Char} (hch : ∀ c ∈ s, c = ' ' ∨ Wrap.isSep c = false) (hw : ∀ w ∈ Wrap.wordsOf s, w.length ≤ d) :
    Wrap.Room (d + 1) (Wrap.normalise s) := by
  rintro u ⟨pre, post, h⟩ hu
  cases u with
  | nil => simp
  | cons c u =>
    have hsep : ∀ x ∈ c :: u, Wrap.isSep x = false := by
      intro x hx
      have hx' := (hu x hx).2.2
      have : x ∈ Wrap.normalise s := by rw [← h]; simp only [List.mem_append]; exact Or.inl (Or.inr hx)
      rcases hch x (Wrap.mem_normalise hx' this) with h | h
      · exact absurd h hx'
      · exact h
    obtain ⟨x, h1, h2⟩ := Wrap.word_of' pre (c :: u) (by simp) hsep post []
    rw [← List.append_assoc, h] at h1
    have := hw x (by rw [← Wrap.words_normalise]; exact h1)
    omega

theorem inner_text {i : Input} {n : Int} (hn : n.natAbs < 10 ^ 8) (l : Int) {m : Nat} (hm : ((counted i).filter (fun c => !c.void)).length = m)
    (hlab : ∀ j < m, (i.startCell + (j : Nat) : Int).natAbs < 10 ^ 8) (r off : Nat) (hr : 30 ≤ r) (hoff : off ≤ 38) :
    ∃ K, ∀ k, K ≤ k → ∃ out d0 ds, innerText i r k off (.lst .and l [.int n]) = .ok out
      ∧ Wrap.wordsOf out = Text.strInt n :: (List.range m).map (fun (j : Nat) => '#' :: Text.strInt (i.startCell + j))
      ∧ Wrap.linesOf out = d0 :: ds ∧ Clean d0 ∧ ∀ t ∈ ds, Clean t ∧ five t = true ∧ inked t = true := by
  have hs : Wrap.wordsOf (Text.strInt n ++ hashes i) = Text.strInt n :: (List.range m).map (fun (j : Nat) => '#' :: Text.strInt (i.startCell + j)) := by
    rw [hashes_eq, hm, words_int, hash_words]
    intro c hc
    cases m with
    | zero => simp [hashList] at hc
    | succ m =>
      unfold hashList at hc
      rw [List.range_succ_eq_map] at hc
      simp at hc
      rw [← hc]
      decide
  have hch : ∀ c ∈ Text.strInt n ++ hashes i, c = ' ' ∨ c = '#' ∨ c.isDigit = true ∨ c = '-' := by
    intro c hc
    rcases List.mem_append.mp hc with hc | hc
    · exact Or.inr (Or.inr ((Text.strInt_word _).2 c hc))
    · rw [hashes_eq] at hc
      exact hash_chars hc
  have hsep : ∀ c ∈ Text.strInt n ++ hashes i, c = ' ' ∨ Wrap.isSep c = false := by
    intro c hc
    rcases hch c hc with h | rfl | h | rfl
    · exact Or.inl h
    · exact Or.inr (by decide)
    · exact Or.inr (Wrap.sep_digit (Or.inl h))
    · exact Or.inr (by decide)
  have hnl : '\n' ∉ Text.strInt n ++ hashes i := by
    intro h
    rcases hch _ h with h | h | h | h <;> exact absurd h (by decide)
  have hlen : ∀ w ∈ Wrap.wordsOf (Text.strInt n ++ hashes i), w.length ≤ 10 := by
    rw [hs]
    intro w hw
    rcases List.mem_cons.mp hw with rfl | hw
    · have := Text.strInt_length (d := 8) (by omega) hn
      omega
    · obtain ⟨j, hj, rfl⟩ := List.mem_map.mp hw
      have := Text.strInt_length (d := 8) (by omega) (hlab j (List.mem_range.mp hj))
      simp only [List.length_cons]
      omega
  have hroom := room_plain hsep hlen
  refine ⟨(Wrap.normalise (Text.strInt n ++ hashes i)).length + 1, fun k hk => ?_⟩
  obtain ⟨out, h1, h2, -, -⟩ := Wrap.C34_wrap_room 80 11 off 11 _ hnl hroom (by omega) (by omega) k (by omega)
  obtain ⟨g1, g2⟩ := Wrap.wrapLine_filled hnl hroom (by omega) (by omega) h1
  have hmem : ∀ t ∈ Wrap.linesOf out, Clean t := by
    intro t ht c hc
    obtain ⟨hc1, hc2⟩ := mem_linesOf ht hc
    rcases g2 c hc1 with h | h | h
    · rcases hch c h with rfl | rfl | h | rfl
      · decide
      · decide
      · refine ⟨?_, ?_, ?_⟩ <;> (rintro rfl; revert h; decide)
      · decide
    · rw [h]; decide
    · exact absurd h hc2
  cases hl : Wrap.linesOf out with
  | nil => exact absurd hl (Wrap.linesOf_ne _)
  | cons d0 ds =>
    rw [hl] at g1 hmem
    refine ⟨out, d0, ds, ?_, by rw [h2, hs], hl, hmem d0 (by simp), fun t ht => ⟨hmem t (List.mem_cons_of_mem _ ht), ?_, ?_⟩⟩
    · unfold innerText
      rw [sphere_text l n hn r k off hr hoff]
      exact h1
    · obtain ⟨x, hx, _⟩ := g1 t ht
      rw [hx]
      rfl
    · obtain ⟨x, hx, c, hc, hcb⟩ := g1 t ht
      exact List.any_eq_true.mpr ⟨c, by rw [hx]; simp [hc], by simpa using hcb⟩

/-! ## numbering -/

theorem counted_real (i : Input) : counted i = i.cells.filter (fun c => c.real) := by
  unfold counted
  apply List.filter_congr
  intro c _
  rcases h : c.id with _ | n <;> simp [Cell.real, h]

theorem solids_counted (i : Input) : solids i = (counted i).filter (fun c => !c.void) := by
  rw [counted_real, List.filter_filter]
  unfold solids
  apply List.filter_congr
  intro c _
  cases c.void <;> simp

/-- the solids have the numbers from `startCell` on -/
theorem numbered_solids {i : Input} (h : Numbered i) (j : Nat) (c : Cell) (hc : (solids i)[j]? = some c) : c.label = i.startCell + j := by
  obtain ⟨so, vo, gr, h1, h2, h3, h4, h5⟩ := h
  have e : solids i = so := by
    rw [solids_counted, counted_real, h1, List.filter_append, List.filter_append]
    have e1 : so.filter (fun c => !c.void) = so := by
      rw [List.filter_eq_self]
      intro c hc
      rw [h2 c hc]
      rfl
    have e2 : vo.filter (fun c => !c.void) = [] := by
      rw [List.filter_eq_nil_iff]
      intro c hc
      rw [(h3 c hc).1]
      decide
    have e3 : gr.filter (fun c => !c.void) = [] := by
      rcases h4 with ⟨rfl, _⟩ | ⟨a, b, rfl, ha, _, hb, _⟩
      · rfl
      · simp [ha, hb]
    rw [e1, e2, e3]
    simp
  rw [e] at hc
  refine h5 j c ?_
  rw [List.append_assoc, List.getElem?_append_left (List.getElem?_eq_some_iff.mp hc).1]
  exact hc

theorem hash_solids {i : Input} (h : Numbered i) :
    List.Forall₂ (fun w (s : Cell) => ∃ v, w = '#' :: v ∧ IsNum v s.label) ((List.range (solids i).length).map (fun (j : Nat) => '#' :: Text.strInt (i.startCell + j))) (solids i) := by
  rw [List.forall₂_iff_get]
  refine ⟨by simp, fun j h1 h2 => ?_⟩
  have := numbered_solids h j ((solids i).get ⟨j, h2⟩) (by simp)
  refine ⟨Text.strInt (i.startCell + j), by simp, ?_⟩
  rw [this]
  exact isNum_int _

theorem solid_mem {i : Input} {c : Cell} (h : c ∈ solids i) : c ∈ i.cells ∧ c.real ∧ c.void = false := by
  unfold solids at h
  have := List.mem_filter.mp h
  exact ⟨this.1, by simpa using this.2⟩

/-- the card of the inner void -/
theorem innerVoid_ok {f : Fmt} {i : Input} (hg : Good f i true) {c : Cell} {op : Op} {l n : Int} {es : List Seq}
    (hdef : c.definition = .lst op l (.int n :: es)) (hn : n.natAbs < 10 ^ 8) {mat : List Char} {den : List (List Char)} (hh : HeadOk c.label mat den (voidHead f i c))
    (r : Nat) (hr : 30 ≤ r) :
    ∃ K, ∀ k, K ≤ k → ∃ t ls reg u, innerVoid f i r k c = .ok ⟨t, { c with matInfo := some (T "Inner void"), definition := .lst .and l [.int n], comments := mergedComment i }, voidAdds i⟩
      ∧ t = fileText ls ∧ (∀ t ∈ ls, NoTitle t) ∧ InnerWords i c reg ∧ UniverseWords i u ∧ cards (body ls) = ([], [Text.strInt c.label :: mat :: (den ++ (reg ++ u))]) := by
  have hlen : (voidHead f i c).length ≤ 38 := by obtain ⟨_, _, _, h3, _⟩ := hh; exact h3
  have hnum := hg.numbered rfl
  obtain ⟨K, hK⟩ := inner_text (i := i) hn l (m := (solids i).length) (by rw [solids_counted]) (by
    intro j hj
    have h1 : (solids i)[j]? = some ((solids i)[j]) := by simp [hj]
    have := numbered_solids hnum j _ h1
    have hc := hg.cells _ (solid_mem (List.getElem_mem hj)).1
    rw [← this]
    exact hc.label) r (voidHead f i c).length hr hlen
  refine ⟨K, fun k hk => ?_⟩
  obtain ⟨out, d0, ds, h1, h2, h3, h4, h5⟩ := hK k hk
  obtain ⟨cl, hcl, hcs⟩ := comment_silent { c with matInfo := some (T "Inner void"), definition := .lst .and l [.int n], comments := mergedComment i }
  obtain ⟨ls, u, g1, g2, g3, g4⟩ := card_text hg.formats i { c with matInfo := some (T "Inner void"), definition := .lst .and l [.int n], comments := mergedComment i }
    hh h3 h4 h5 (tl := cl ++ [[]]) (by
      intro t ht
      rcases List.mem_append.mp ht with ht | ht
      · exact hcs t ht
      · rw [List.mem_singleton] at ht
        rw [ht]
        exact silent_nil)
  refine ⟨_, ls, _, u, ?_, g1, g2, ?_, g3, g4⟩
  · unfold innerVoid innerDef
    rw [hdef]
    dsimp only [List.take_succ_cons, List.take_zero]
    rw [h1]
    dsimp only
    rw [hcl, fileText_append]
    simp [fileText]
  · exact ⟨op, l, n, es, _, _, hdef, h2, isNum_int n, hash_solids hnum⟩

end Geouned.PhitsFile
