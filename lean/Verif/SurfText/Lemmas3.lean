import Verif.SurfText.Lemmas2
import Verif.Card.Props
/-! Lemmas for C81: other data cards, lists of cards -/
namespace Geouned.SurfText
open Geouned.CellText

variable {V : Type}

/-- the names of data cards that cause no trouble: no digit followed by `r` or `i`; no `tr` among the first three characters; after `m` either a digit or one of
the words `mode`, `mesh`, `mphys`; neither `f` nor `fmesh` alone -/
structure Harmless (w : List Char) : Prop where
  rpt : ∀ (i : Nat) (c d : Char), w[i]? = some c → w[i + 1]? = some d → c.isDigit = true → d.toLower ≠ 'r' ∧ d.toLower ≠ 'i'
  tr : ¬ ['t', 'r'] <:+: (w.take 3).map Char.toLower
  mat : (w.map Char.toLower).head? = some 'm' → (∃ c ∈ w, c.isDigit = true) ∨ ['m', 'o', 'd', 'e'] <:+: w.map Char.toLower ∨
    ['m', 'e', 's', 'h'] <:+: w.map Char.toLower ∨ ['m', 'p', 'h', 'y', 's'] <:+: w.map Char.toLower
  tally : ¬ Same ['f'] w ∧ ¬ Same ['f', 'm', 'e', 's', 'h'] w

theorem hasInfix_iff (word s : List Char) : hasInfix word s = true ↔ word <:+: s := by
  induction s with
  | nil => simp [hasInfix]
  | cons c s ih =>
    rw [hasInfix, Bool.or_eq_true, ih, List.isPrefixOf_iff_prefix, List.infix_cons_iff]

theorem pairFree_of (w : List Char) (h : ∀ (i : Nat) (c d : Char), w[i]? = some c → w[i + 1]? = some d → c.isDigit = true → d.toLower ≠ 'r' ∧ d.toLower ≠ 'i') :
    PairFree false w := by
  have key : ∀ (w : List Char) (p : Bool), (∀ d, w.head? = some d → p = true → d.toLower ≠ 'r' ∧ d.toLower ≠ 'i') →
      (∀ (i : Nat) (c d : Char), w[i]? = some c → w[i + 1]? = some d → c.isDigit = true → d.toLower ≠ 'r' ∧ d.toLower ≠ 'i') → PairFree p w := by
    intro w
    induction w with
    | nil => intros; trivial
    | cons c w ih =>
      intro p h1 h2
      refine ⟨fun hp => ?_, ih _ (fun d hd hc => ?_) (fun i => by simpa using h2 (i + 1))⟩
      · have := h1 c rfl hp
        simp [isRI, this.1, this.2]
      · refine h2 0 c d rfl ?_ hc
        cases w with
        | nil => cases hd
        | cons y w => simpa using hd
  exact key w false (fun _ _ h => (by cases h)) h

theorem other_read (F : Arith V) {w : List Char} {rest : List (List Char)} (hw : Harmless w) {s : List Char} (hs : pySplit s = w :: rest) :
    dataValues F (protect s) = .ok none := by
  obtain ⟨rest', hr⟩ := protect_first (pairFree_of w hw.rpt) hs
  obtain ⟨_, _, _, _, hw0, _⟩ := split_first hs
  have h1 : hasInfix ['t', 'r'] (low (w.take 3)) = false := by
    cases hh : hasInfix ['t', 'r'] (low (w.take 3)) with
    | false => rfl
    | true => exact absurd ((hasInfix_iff _ _).mp hh) hw.tr
  have hsd : splitData (protect s) = .ok none := by
    unfold splitData
    rw [hr]
    dsimp only
    rw [if_neg (by simp [h1])]
    split
    · rename_i h2
      obtain ⟨hm, h3, h4, h5⟩ := h2
      have hm' : (w.map Char.toLower).head? = some 'm' := by
        cases w with
        | nil => exact absurd rfl hw0
        | cons c w => simpa [low] using hm
      rcases hw.mat hm' with ⟨c, hc, hcd⟩ | h | h | h
      · rw [pyInt_digits (getInt_some w [] (Or.inr ⟨c, hc, hcd⟩) (by simp))]
      · rw [(hasInfix_iff _ (low w)).mpr h] at h3; cases h3
      · rw [(hasInfix_iff _ (low w)).mpr h] at h4; cases h4
      · rw [(hasInfix_iff _ (low w)).mpr h] at h5; cases h5
    · split
      · rename_i h2
        exfalso
        refine hw.tally.1 ?_
        match w, h2 with
        | [c], h2 => simpa [Same, low] using h2.1
        | [], h2 => exact absurd rfl hw0
        | _ :: _ :: _, h2 => simp at h2
      · split
        · rename_i h2; exact absurd h2 hw.tally.2
        · rfl
  unfold dataValues
  rw [hsd]

/-! ### lists of cards -/

/-- the texts of the cards of one kind -/
def textsOf (k : Card.Kind) (l : List (Card.Kind × List (List Char))) : List (List (List Char)) := (l.filter (fun x => x.1 = k)).map (·.2)

/-- the words of texts -/
def Has (t : List (List Char)) (ws : List (List Char)) : Prop := t.flatMap pySplit = ws

theorem input_split (input : List (List Char)) : pySplit (joinLines input) = (input.filter (fun t => t.any (fun x => x ≠ ' '))).flatMap pySplit := by
  rw [split_join, split_filter]

theorem view_cons (c : Card.PyCard) (cs : List Card.PyCard) :
    Card.view (c :: cs) = ((Card.kindOf c.ctype).map (fun k => (k, c.input.filter (fun t => t.any (fun x => x ≠ ' '))))).toList ++ Card.view cs := by
  unfold Card.view
  rw [List.filterMap_cons]
  cases Card.kindOf c.ctype <;> simp

theorem textsOf_cons_ne {k : Card.Kind} {c : Card.PyCard} {cs : List Card.PyCard} (h : Card.kindOf c.ctype ≠ some k) :
    textsOf k (Card.view (c :: cs)) = textsOf k (Card.view cs) := by
  rw [view_cons]
  unfold textsOf
  cases hk : Card.kindOf c.ctype with
  | none => simp
  | some k' =>
    have : k' ≠ k := fun e => h (by rw [hk, e])
    simp [this]

theorem textsOf_cons_eq {k : Card.Kind} {c : Card.PyCard} {cs : List Card.PyCard} (h : Card.kindOf c.ctype = some k) :
    textsOf k (Card.view (c :: cs)) = c.input.filter (fun t => t.any (fun x => x ≠ ' ')) :: textsOf k (Card.view cs) := by
  rw [view_cons]
  unfold textsOf
  rw [h]
  simp

theorem kind_surface {ct : Int} : Card.kindOf ct = some .surface ↔ ct = Card.cidSurface := by
  unfold Card.kindOf Card.cidSurface
  constructor
  · intro h
    split at h
    · cases h
    · split at h
      · assumption
      · split at h <;> cases h
  · rintro rfl; decide

theorem kind_data {ct : Int} : Card.kindOf ct = some .data ↔ ct = Card.cidData := by
  unfold Card.kindOf Card.cidData
  constructor
  · intro h
    split at h
    · cases h
    · split at h
      · cases h
      · split at h
        · assumption
        · cases h
  · rintro rfl; decide

theorem surfaces_read (F : Arith V) (hF : ∀ t, Number False t → ∃ v, F.flt t = some v) : ∀ (cs : List Card.PyCard) (ws : List SurfCard),
    List.Forall₂ (fun t w => Has t w.words) (textsOf .surface (Card.view cs)) ws → (∀ w ∈ ws, w.Ok ∧ AllNum w.entries) →
    ∃ rs, surfaceCards F cs = .ok rs ∧ List.Forall₂ (SurfCard.Says F) ws rs
  | [], ws, h, _ => by
    have : ws = [] := by cases h; rfl
    subst this
    exact ⟨[], rfl, .nil⟩
  | c :: cs, ws, h, hok => by
    by_cases hc : c.ctype = Card.cidSurface
    · rw [textsOf_cons_eq (kind_surface.mpr hc)] at h
      cases h with
      | @cons _ w _ ws' hw hrest =>
        obtain ⟨rs, h1, h2⟩ := surfaces_read F hF cs ws' hrest (fun x hx => hok x (List.mem_cons_of_mem _ hx))
        obtain ⟨r, h3, h4⟩ := surface_read F hF (hok w List.mem_cons_self).1 (hok w List.mem_cons_self).2
          (s := joinLines c.input) (by rw [input_split]; exact hw)
        refine ⟨r :: rs, ?_, .cons h4 h2⟩
        rw [surfaceCards, if_pos hc, h3, h1]
    · rw [textsOf_cons_ne (fun e => hc (kind_surface.mp e))] at h
      obtain ⟨rs, h1, h2⟩ := surfaces_read F hF cs ws h hok
      exact ⟨rs, by rw [surfaceCards, if_neg hc, h1], h2⟩

/-- the data cards of the restricted theorem -/
def DataOk : DataCard → Prop
  | .tr star word num es => (DataCard.tr star word num es).Ok ∧ AllNum es
  | .other w _ => Harmless w

theorem data_read (F : Arith V) (hF : ∀ t, Number False t → ∃ v, F.flt t = some v) : ∀ (cs : List Card.PyCard) (ds : List DataCard),
    List.Forall₂ (fun t w => Has t w.words) (textsOf .data (Card.view cs)) ds → (∀ w ∈ ds, DataOk w) →
    ∃ rs, transCards F cs = .ok rs ∧ AllTr F ds rs
  | [], ds, h, _ => by
    have : ds = [] := by cases h; rfl
    subst this
    exact ⟨[], rfl, .nil⟩
  | c :: cs, ds, h, hok => by
    by_cases hc : c.ctype = Card.cidData
    · rw [textsOf_cons_eq (kind_data.mpr hc)] at h
      cases h with
      | @cons _ w _ ds' hw hrest =>
        obtain ⟨rs, h1, h2⟩ := data_read F hF cs ds' hrest (fun x hx => hok x (List.mem_cons_of_mem _ hx))
        have hs : pySplit (joinLines c.input) = w.words := by rw [input_split]; exact hw
        have hw1 := hok w List.mem_cons_self
        cases w with
        | tr star word num es =>
          obtain ⟨r, h3, h4⟩ := tr_read F hF hw1.1 hw1.2 hs
          refine ⟨r :: rs, ?_, .tr _ _ _ _ _ _ _ h4 h2⟩
          rw [transCards, if_pos hc, h3, h1]
          rfl
        | other v rest =>
          have h3 := other_read F (w := v) (rest := rest) hw1 hs
          refine ⟨rs, ?_, .other _ _ _ _ h2⟩
          rw [transCards, if_pos hc, h3, h1]
          rfl
    · rw [textsOf_cons_ne (fun e => hc (kind_data.mp e))] at h
      obtain ⟨rs, h1, h2⟩ := data_read F hF cs ds h hok
      exact ⟨rs, by rw [transCards, if_neg hc, h1], h2⟩

theorem textsOf_surface (d : Card.Deck) : textsOf .surface d.says = d.surfaces.cards.map (fun m => m.2.says) := by
  unfold textsOf Card.Deck.says
  simp [List.filter_append, List.filter_map, Function.comp_def]

theorem textsOf_data (d : Card.Deck) : textsOf .data d.says = d.data.cards.map (fun m => m.2.says) := by
  unfold textsOf Card.Deck.says
  simp [List.filter_append, List.filter_map, Function.comp_def]

theorem says_noline {c : Card.CardText} (h : c.Ok) : ∀ t ∈ c.says, '\n' ∉ t := by
  intro t ht hn
  unfold Card.CardText.says at ht
  obtain ⟨u, hu, rfl⟩ := List.mem_map.mp (List.mem_filter.mp ht).1
  have hmem : '\n' ∈ u := (List.takeWhile_sublist _).subset hn
  have hb : u ∈ c.lines := by
    unfold Card.CardText.body at hu
    unfold Card.CardText.lines
    rcases List.mem_cons.mp hu with rfl | hu
    · exact List.mem_cons_self
    · obtain ⟨m, hm, rfl⟩ := List.mem_map.mp hu
      exact List.mem_cons_of_mem _ (List.mem_flatMap.mpr ⟨m, hm, by simp⟩)
  exact absurd (h.plain u hb '\n' hmem (by decide)) (by decide)

theorem words_has {c : Card.CardText} (h : c.Ok) {ws : List (List Char)} (hw : CardWords c ws) : Has c.says ws := by
  obtain ⟨wss, hf, rfl⟩ := hw
  have hl := says_noline h
  unfold Has
  revert hl
  generalize c.says = ls at hf
  intro hl
  induction hf with
  | nil => rfl
  | cons h1 _ ih =>
    rw [List.flatMap_cons, List.flatten_cons, spelled_split h1 (hl _ List.mem_cons_self), ih (fun t ht => hl t (List.mem_cons_of_mem _ ht))]

theorem block_has {W : Type} (f : W → List (List Char)) {b : Card.Block} (hb : b.Ok) {ws : List W}
    (h : List.Forall₂ (fun m w => CardWords m.2 (f w)) b.cards ws) : List.Forall₂ (fun t w => Has t (f w)) (b.cards.map (fun m => m.2.says)) ws := by
  have hc := hb.cards
  revert hc
  generalize b.cards = l at h
  intro hc
  induction h with
  | nil => exact .nil
  | cons h1 _ ih => exact .cons (words_has (hc _ List.mem_cons_self) h1) (ih (fun m hm => hc m (List.mem_cons_of_mem _ hm)))

end Geouned.SurfText
