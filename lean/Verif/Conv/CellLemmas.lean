import Verif.Conv.CellSpec
import Verif.Text.Props
/-!
# Lemmas on `cellDef`
-/
namespace Geouned.Conv
open Geouned.Text

theorem mem_addNew {α : Type} [DecidableEq α] {l : List α} {x y : α} : y ∈ addNew l x ↔ y ∈ l ∨ y = x := by
  unfold addNew
  split
  · next h => constructor
              · exact .inl
              · rintro (h' | rfl)
                · exact h'
                · exact h
  · simp

theorem mem_addExtra {id p : Int} : ∀ {e : List (Int × List Int)} {k q : Int},
    (∃ ps, (k, ps) ∈ addExtra id p e ∧ q ∈ ps) ↔ (∃ ps, (k, ps) ∈ e ∧ q ∈ ps) ∨ (k = id ∧ q = p)
  | [], k, q => by
    simp only [addExtra, List.mem_cons, List.not_mem_nil, or_false, Prod.mk.injEq, false_and, exists_false, false_or]
    constructor
    · rintro ⟨ps, ⟨h1, h2⟩, h3⟩
      subst h2
      exact ⟨h1, by simpa using h3⟩
    · rintro ⟨h1, h2⟩
      exact ⟨[p], ⟨h1, rfl⟩, by simp [h2]⟩
  | (k', ps') :: r, k, q => by
    have ih := mem_addExtra (id := id) (p := p) (e := r) (k := k) (q := q)
    simp only [addExtra]
    split
    · next h =>
      subst h
      constructor
      · rintro ⟨ps, h1, h2⟩
        rcases List.mem_cons.1 h1 with h1 | h1
        · cases h1
          rcases mem_addNew.1 h2 with h2 | h2
          · exact .inl ⟨ps', by simp, h2⟩
          · exact .inr ⟨rfl, h2⟩
        · exact .inl ⟨ps, by simp [h1], h2⟩
      · rintro (⟨ps, h1, h2⟩ | ⟨h1, h2⟩)
        · rcases List.mem_cons.1 h1 with h1 | h1
          · cases h1
            exact ⟨_, List.mem_cons_self, mem_addNew.2 (.inl h2)⟩
          · exact ⟨ps, by simp [h1], h2⟩
        · subst h1
          exact ⟨_, List.mem_cons_self, mem_addNew.2 (.inr h2)⟩
    · constructor
      · rintro ⟨ps, h1, h2⟩
        rcases List.mem_cons.1 h1 with h1 | h1
        · cases h1
          exact .inl ⟨ps', by simp, h2⟩
        · rcases ih.1 ⟨ps, h1, h2⟩ with ⟨ps, h1, h2⟩ | h
          · exact .inl ⟨ps, by simp [h1], h2⟩
          · exact .inr h
      · rintro (⟨ps, h1, h2⟩ | h)
        · rcases List.mem_cons.1 h1 with h1 | h1
          · cases h1
            exact ⟨ps', by simp, h2⟩
          · obtain ⟨ps, h1, h2⟩ := ih.2 (.inl ⟨ps, h1, h2⟩)
            exact ⟨ps, by simp [h1], h2⟩
        · obtain ⟨ps, h1, h2⟩ := ih.2 (.inr h)
          exact ⟨ps, by simp [h1], h2⟩

theorem addExtra_keys {id p : Int} : ∀ {e : List (Int × List Int)} {k : Int}, k ∈ (addExtra id p e).map Prod.fst ↔ k ∈ e.map Prod.fst ∨ k = id
  | [], k => by simp [addExtra]
  | (k', ps') :: r, k => by
    have ih := addExtra_keys (id := id) (p := p) (e := r) (k := k)
    simp only [addExtra]
    split
    · next h => subst h; simp; rintro rfl; exact .inl rfl
    · simp only [List.map_cons, List.mem_cons, ih, or_assoc]

theorem addExtra_nodup {id p : Int} : ∀ {e : List (Int × List Int)}, (e.map Prod.fst).Nodup → ((addExtra id p e).map Prod.fst).Nodup
  | [], _ => by simp [addExtra]
  | (k', ps') :: r, h => by
    simp only [List.map_cons, List.nodup_cons] at h
    have ih := addExtra_nodup (id := id) (p := p) (e := r) h.2
    simp only [addExtra]
    split
    · simpa using h
    · next hne =>
      simp only [List.map_cons, List.nodup_cons]
      refine ⟨?_, ih⟩
      rw [addExtra_keys]
      rintro (h' | h')
      · exact h.1 h'
      · exact hne h'

theorem addExtra_ne {id p : Int} : ∀ {e : List (Int × List Int)}, (∀ x ∈ e, x.2 ≠ []) → ∀ x ∈ addExtra id p e, x.2 ≠ []
  | [], _ => by simp [addExtra]
  | (k', ps') :: r, h => by
    have ih := addExtra_ne (id := id) (p := p) (e := r) (fun x hx => h x (by simp [hx]))
    simp only [addExtra]
    split
    · intro x hx
      rcases List.mem_cons.1 hx with rfl | hx
      · intro hnil
        have := (mem_addNew (l := ps') (x := p) (y := p)).2 (.inr rfl)
        simp only at hnil
        rw [hnil] at this
        cases this
      · exact h x (by simp [hx])
    · intro x hx
      rcases List.mem_cons.1 hx with rfl | hx
      · exact h _ (by simp)
      · exact ih x hx

/-- the text of a face -/
def ftext : Face → Option (List Tok)
  | .ignored => none
  | .oblique => none
  | .reversed _ id _ => some [.num id]
  | .torus _ v u => some (torusText v u)
  | .other _ var => some [.num var]

/-- what the loop over the faces knows after the faces `done` -/
structure FInv (done : List Face) (s : FState) : Prop where
  piece : ∀ t, t ∈ s.piece ↔ ∃ F ∈ done, ftext F = some t
  extra : ∀ k q, (∃ ps, (k, ps) ∈ s.extra ∧ q ∈ ps) ↔ ∃ c, Face.reversed c k (some q) ∈ done
  keys : (s.extra.map Prod.fst).Nodup
  ne : ∀ x ∈ s.extra, x.2 ≠ []
  last : s.last = -1 ∨ ∃ v u, Face.torus s.last v u ∈ done

theorem faceStep_inv {all done : List Face} {s : FState} {F : Face} (hs : SameGroups all) (hn : F.Numbered) (hF : F ∈ all) (hd : ∀ G ∈ done, G ∈ all)
    (h : FInv done s) : FInv (done ++ [F]) (faceStep s F) := by
  have lastMono : ∀ {s' : FState}, s'.last = s.last → (s'.last = -1 ∨ ∃ v u, Face.torus s'.last v u ∈ done ++ [F]) := by
    intro s' e
    rw [e]
    rcases h.last with h' | ⟨v, u, h'⟩
    · exact .inl h'
    · exact .inr ⟨v, u, by simp [h']⟩
  cases F with
  | ignored =>
    refine ⟨fun t => ?_, fun k q => ?_, h.keys, h.ne, lastMono rfl⟩
    · simp [faceStep, h.piece, ftext, or_and_right, exists_or]
    · simp [faceStep, h.extra]
  | oblique =>
    refine ⟨fun t => ?_, fun k q => ?_, h.keys, h.ne, lastMono rfl⟩
    · simp [faceStep, h.piece, ftext, or_and_right, exists_or]
    · simp [faceStep, h.extra]
  | other c var =>
    refine ⟨fun t => ?_, fun k q => ?_, h.keys, h.ne, lastMono rfl⟩
    · simp only [faceStep, mem_addNew, h.piece, List.mem_append, List.mem_singleton, or_and_right, exists_or, exists_eq_left, ftext, Option.some.injEq]
      rw [eq_comm (a := t)]
    · simp [faceStep, h.extra]
  | reversed c id plane =>
    have hp : ∀ t, t ∈ addNew s.piece [.num id] ↔ ∃ F ∈ done ++ [Face.reversed c id plane], ftext F = some t := by
      intro t
      simp only [mem_addNew, h.piece, List.mem_append, List.mem_singleton, or_and_right, exists_or, exists_eq_left, ftext, Option.some.injEq]
      rw [eq_comm (a := t)]
    cases plane with
    | none =>
      refine ⟨hp, fun k q => ?_, h.keys, h.ne, lastMono rfl⟩
      simp [faceStep, h.extra]
    | some p =>
      refine ⟨hp, fun k q => ?_, addExtra_nodup h.keys, addExtra_ne h.ne, lastMono rfl⟩
      simp only [faceStep, mem_addExtra, h.extra, List.mem_append, List.mem_singleton, Face.reversed.injEq, exists_or, Option.some.injEq]
      constructor
      · rintro (h' | ⟨h1, h2⟩)
        · exact .inl h'
        · exact .inr ⟨c, rfl, h1, h2⟩
      · rintro (h' | ⟨_, _, h1, h2⟩)
        · exact .inl h'
        · exact .inr ⟨h1, h2⟩
  | torus index v u =>
    simp only [faceStep]
    split
    · next he =>
      have hi := hn.1
      refine ⟨fun t => ?_, fun k q => ?_, h.keys, h.ne, lastMono rfl⟩
      · rw [h.piece]
        simp only [List.mem_append, List.mem_singleton, or_and_right, exists_or, exists_eq_left, ftext, Option.some.injEq]
        constructor
        · exact .inl
        · rintro (h' | h')
          · exact h'
          · rcases h.last with h1 | ⟨v', u', h1⟩
            · omega
            · rw [← he] at h1
              obtain ⟨e1, e2⟩ := hs index v u v' u' hF (hd _ h1)
              subst e1 e2
              exact ⟨_, h1, by simp [ftext, h']⟩
      · simp [h.extra]
    · refine ⟨fun t => ?_, fun k q => ?_, h.keys, h.ne, .inr ⟨v, u, by simp⟩⟩
      · simp only [mem_addNew, h.piece, List.mem_append, List.mem_singleton, or_and_right, exists_or, exists_eq_left, ftext, Option.some.injEq]
        rw [eq_comm (a := t)]
      · simp [h.extra]

theorem fold_inv {all : List Face} (hs : SameGroups all) (hn : ∀ F ∈ all, F.Numbered) : ∀ (rest done : List Face) (s : FState), done ++ rest = all →
    FInv done s → FInv all (rest.foldl faceStep s)
  | [], done, s, e, h => by simp only [List.append_nil] at e; subst e; exact h
  | F :: rest, done, s, e, h => by
    have hF : F ∈ all := by rw [← e]; simp
    have := faceStep_inv hs (hn F hF) hF (fun G hG => by rw [← e]; simp [hG]) h
    exact fold_inv hs hn rest (done ++ [F]) _ (by simpa using e) this

theorem init_inv : FInv [] ⟨[], [], -1⟩ := ⟨by simp, by simp, by simp, by simp, .inl rfl⟩

/-- the text of a group of additional planes -/
def groupText : List Int → List Tok
  | [p] => [.num p]
  | ps => orText ps

theorem mem_addExtras : ∀ {e : List (Int × List Int)} {piece : List (List Tok)} {t : List Tok},
    t ∈ addExtras e piece ↔ t ∈ piece ∨ ∃ x ∈ e, t = groupText x.2
  | [], piece, t => by simp [addExtras]
  | (k, []) :: r, piece, t => by
    simp [addExtras, mem_addExtras (e := r), groupText, or_assoc]
  | (k, [p]) :: r, piece, t => by
    simp [addExtras, mem_addExtras (e := r), groupText, mem_addNew, or_assoc]
  | (k, p :: p' :: ps) :: r, piece, t => by
    simp [addExtras, mem_addExtras (e := r), groupText, or_assoc]

/-! ### What the texts mean -/

/-- the text reads as an intersection, everywhere -/
def Sound (t : List Tok) : Prop := ∀ σ, ∃ b, Reads σ .inter (solid t) b

/-- the text holds -/
def Hold (σ : Side) (t : List Tok) : Prop := Reads σ .inter (solid t) true

theorem hold_iff {σ : Side} {t : List Tok} {b : Bool} (h : Reads σ .inter (solid t) b) : Hold σ t ↔ b = true := by
  constructor
  · intro h'
    exact C16_unambiguous σ t _ _ (.single h) (.single h')
  · rintro rfl; exact h

theorem solid_append (a b : List Tok) : solid (a ++ b) = solid a ++ solid b := by simp [solid]

theorem solid_num (n : Int) : solid [.num n] = [.num n] := rfl

theorem reads_num {σ : Side} {n : Int} (h : n ≠ 0) : Reads σ .inter (solid [.num n]) (lit σ n) := .one (.num n h)

theorem join_blank {σ : Side} : ∀ (ts : List (List Tok)) (bs : List Bool), ts ≠ [] →
    List.Forall₂ (fun t b => Reads σ .inter (solid t) b) ts bs → Reads σ .inter (solid (join [.blank] ts)) (bs.all id)
  | [], _, h, _ => absurd rfl h
  | [t], [b], _, .cons h .nil => by simpa [join] using h
  | t :: t' :: ts, b :: b' :: bs, _, .cons h h' => by
    have ih := join_blank (t' :: ts) (b' :: bs) (by simp) h'
    simp only [join, solid_append]
    have : solid [Tok.blank] = [] := rfl
    rw [this, List.nil_append, List.all_cons]
    exact Reads.interAppend h ih

theorem exists_vals {σ : Side} : ∀ (ts : List (List Tok)), (∀ t ∈ ts, Sound t) → ∃ bs, List.Forall₂ (fun t b => Reads σ .inter (solid t) b) ts bs ∧
    (bs.all id = true ↔ ∀ t ∈ ts, Hold σ t)
  | [], _ => ⟨[], .nil, by simp⟩
  | t :: ts, h => by
    obtain ⟨bs, h1, h2⟩ := exists_vals ts (fun t' ht' => h t' (by simp [ht']))
    obtain ⟨b, hb⟩ := h t (by simp) σ
    refine ⟨b :: bs, .cons hb h1, ?_⟩
    simp only [List.all_cons, Bool.and_eq_true, h2, id, List.mem_cons, forall_eq_or_imp, hold_iff hb]

theorem join_sound {ts : List (List Tok)} (hne : ts ≠ []) (h : ∀ t ∈ ts, Sound t) (σ : Side) :
    ∃ b, Reads σ .inter (solid (join [.blank] ts)) b ∧ (b = true ↔ ∀ t ∈ ts, Hold σ t) := by
  obtain ⟨bs, h1, h2⟩ := exists_vals (σ := σ) ts h
  exact ⟨_, join_blank ts bs hne h1, h2⟩

theorem or_reads {σ : Side} : ∀ (ps : List Int), ps ≠ [] → (∀ p ∈ ps, p ≠ 0) →
    Reads σ .union (join [.colon] (ps.map fun p => [Tok.num p])) (ps.any fun p => lit σ p)
  | [], h, _ => absurd rfl h
  | [p], _, hp => by simpa [join] using (Reads.single (.one (.num p (hp p (by simp)))) : Reads σ .union [.num p] (lit σ p))
  | p :: p' :: ps, _, hp => by
    have ih := or_reads (σ := σ) (p' :: ps) (by simp) (fun x hx => hp x (by simp [hx]))
    simp only [List.map_cons, join, List.any_cons] at ih ⊢
    exact .or (t := [.num p]) (.one (.num p (hp p (by simp)))) ih

theorem solid_or (ps : List Int) : solid (join [.colon] (ps.map fun p => [Tok.num p])) = join [.colon] (ps.map fun p => [Tok.num p]) := by
  unfold solid
  rw [List.filter_eq_self]
  induction ps with
  | nil => simp [join]
  | cons p ps ih =>
    cases ps with
    | nil => simp [join]
    | cons p' ps =>
      simp only [List.map_cons, join] at ih ⊢
      intro a ha
      simp only [List.cons_append, List.nil_append, List.mem_cons] at ha
      rcases ha with rfl | rfl | ha
      · simp
      · simp
      · exact ih a ha

theorem group_reads {σ : Side} {ps : List Int} (hne : ps ≠ []) (hp : ∀ p ∈ ps, p ≠ 0) :
    Reads σ .inter (solid (groupText ps)) (ps.any fun p => lit σ p) := by
  have h := or_reads (σ := σ) ps hne hp
  have ho : Reads σ .inter (solid (orText ps)) (ps.any fun p => lit σ p) := by
    have : solid (orText ps) = .lp :: (join [.colon] (ps.map fun p => [Tok.num p]) ++ [.rp]) := by
      have e := solid_or ps
      unfold orText
      rw [show (Tok.lp :: (join [.colon] (ps.map fun p => [Tok.num p]) ++ [.rp])) = [Tok.lp] ++ (join [.colon] (ps.map fun p => [Tok.num p]) ++ [.rp]) from rfl]
      rw [solid_append, solid_append, e]
      rfl
    rw [this]
    exact .one (.paren h)
  match ps, hne, hp, ho with
  | [p], _, hp, _ => simpa [groupText] using reads_num (σ := σ) (hp p (by simp))
  | p :: p' :: ps, _, _, ho => simpa [groupText] using ho

theorem vtext_reads {σ : Side} {v : VCut} (h : match v with | .whole n => n ≠ 0 | .cut n m => n ≠ 0 ∧ m ≠ 0) :
    ∃ b, Reads σ .inter (solid v.text) b ∧ (b = true ↔ v.Holds σ) := by
  cases v with
  | whole n => exact ⟨_, reads_num h, Iff.rfl⟩
  | cut n m => exact ⟨_, .and (.num n h.1) (.one (.num m h.2)), by simp [VCut.Holds]⟩

theorem torus_reads {σ : Side} {i : Int} {v : VCut} {u : UCut} (h : (Face.torus i v u).Numbered) :
    ∃ b, Reads σ .inter (solid (torusText v u)) b ∧ (b = true ↔ v.Holds σ ∧ u.Holds σ) := by
  obtain ⟨_, hv, hu⟩ := h
  obtain ⟨b, h1, h2⟩ := vtext_reads (σ := σ) hv
  have key : ∀ {t : List Tok} {c : Bool}, Reads σ .inter (solid t) c → Reads σ .inter (solid (v.text ++ .blank :: t)) (b && c) := by
    intro t c hc
    have : solid (v.text ++ .blank :: t) = solid v.text ++ solid t := by rw [solid_append]; rfl
    rw [this]
    exact Reads.interAppend h1 hc
  cases u with
  | closed => exact ⟨b, h1, by simp [UCut.Holds, h2]⟩
  | one a => exact ⟨_, key (reads_num hu), by simp [UCut.Holds, h2]⟩
  | two or a c =>
    cases or with
    | true =>
      refine ⟨_, key (t := (UCut.two true a c).text) (c := lit σ a || lit σ c) ?_, by simp [UCut.Holds, h2]⟩
      exact .one (.paren (t := [.num a, .colon, .num c]) (.or (t := [.num a]) (.one (.num a hu.1)) (.single (.one (.num c hu.2)))))
    | false =>
      refine ⟨_, key (t := (UCut.two false a c).text) (c := lit σ a && lit σ c) ?_, by simp [UCut.Holds, h2]⟩
      exact .and (.num a hu.1) (.one (.num c hu.2))

/-- the text of a piece is readable and means what its faces say -/
theorem pieceText_spec {faces : List Face} (hs : SameGroups faces) (hn : ∀ F ∈ faces, F.Numbered) :
    ((∃ F ∈ faces, F.Used) → pieceText faces ≠ [] ∧ (∃ σ b, Means σ (pieceText faces) b) ∧ (∃ σ, Means σ (pieceText faces) false) ∧
      ∀ σ b, Means σ (pieceText faces) b → (b = true ↔ PieceHolds σ faces)) ∧
    ((¬ ∃ F ∈ faces, F.Used) → pieceText faces = []) := by
  have inv := fold_inv hs hn faces [] _ rfl init_inv
  generalize hst : faces.foldl faceStep ⟨[], [], -1⟩ = st at inv
  have hp : pieceText faces = join [.blank] (addExtras st.extra st.piece) := by unfold pieceText; rw [hst]
  have hmem : ∀ t, t ∈ addExtras st.extra st.piece ↔ (∃ F ∈ faces, ftext F = some t) ∨ ∃ x ∈ st.extra, t = groupText x.2 := by
    intro t; rw [mem_addExtras, inv.piece]
  have hplane : ∀ x ∈ st.extra, ∀ q ∈ x.2, q ≠ 0 := by
    intro x hx q hq
    obtain ⟨c, hc⟩ := (inv.extra x.1 q).1 ⟨x.2, hx, hq⟩
    exact (hn _ hc).2 q rfl
  have hgroup : ∀ σ, ∀ x ∈ st.extra, Reads σ .inter (solid (groupText x.2)) (x.2.any fun p => lit σ p) :=
    fun σ x hx => group_reads (inv.ne x hx) (hplane x hx)
  have hface : ∀ σ F t, F ∈ faces → ftext F = some t → ∃ b, Reads σ .inter (solid t) b ∧
      (b = true ↔ (match (generalizing := false) F with | .reversed _ id _ => lit σ id = true | F => F.Holds σ faces)) := by
    intro σ F t hF ht
    have hnum := hn F hF
    cases F with
    | ignored => cases ht
    | oblique => cases ht
    | reversed c id plane => cases ht; exact ⟨_, reads_num hnum.1, Iff.rfl⟩
    | torus i v u => cases ht; exact torus_reads hnum
    | other c var => cases ht; exact ⟨_, reads_num hnum, Iff.rfl⟩
  have hsound : ∀ t ∈ addExtras st.extra st.piece, Sound t := by
    intro t ht σ
    rcases (hmem t).1 ht with ⟨F, hF, e⟩ | ⟨x, hx, rfl⟩
    · obtain ⟨b, hb, _⟩ := hface σ F t hF e
      exact ⟨b, hb⟩
    · exact ⟨_, hgroup σ x hx⟩
  have hiff : ∀ σ, (∀ t ∈ addExtras st.extra st.piece, Hold σ t) ↔ ∀ F ∈ faces, F.Holds σ faces := by
    intro σ
    constructor
    · intro h F hF
      have basic : ∀ t, ftext F = some t → (match (generalizing := false) F with | .reversed _ id _ => lit σ id = true | F => F.Holds σ faces) := by
        intro t ht
        obtain ⟨b, hb, hb'⟩ := hface σ F t hF ht
        exact hb'.1 ((hold_iff hb).1 (h t ((hmem t).2 (.inl ⟨F, hF, ht⟩))))
      cases F with
      | ignored => trivial
      | oblique => trivial
      | torus i v u => exact basic _ rfl
      | other c var => exact basic _ rfl
      | reversed c id plane =>
        refine ⟨basic _ rfl, ?_⟩
        intro hpl
        obtain ⟨p, rfl⟩ := Option.isSome_iff_exists.1 hpl
        obtain ⟨ps, hps, hpp⟩ := (inv.extra id p).2 ⟨c, hF⟩
        have := (hold_iff (hgroup σ _ hps)).1 (h _ ((hmem _).2 (.inr ⟨_, hps, rfl⟩)))
        obtain ⟨q, hq, hl⟩ := List.any_eq_true.1 this
        obtain ⟨c', hc'⟩ := (inv.extra id q).1 ⟨ps, hps, hq⟩
        exact ⟨c', q, hc', hl⟩
    · intro h t ht
      rcases (hmem t).1 ht with ⟨F, hF, e⟩ | ⟨x, hx, rfl⟩
      · obtain ⟨b, hb, hb'⟩ := hface σ F t hF e
        rw [hold_iff hb, hb']
        have := h F hF
        cases F with
        | reversed c id plane => exact this.1
        | ignored => exact this
        | oblique => exact this
        | torus i v u => exact this
        | other c var => exact this
      · rw [hold_iff (hgroup σ x hx)]
        obtain ⟨k, ps⟩ := x
        obtain ⟨p, hp⟩ := List.exists_mem_of_ne_nil _ (inv.ne _ hx)
        obtain ⟨c, hc⟩ := (inv.extra k p).1 ⟨ps, hx, hp⟩
        obtain ⟨c', q, hq, hl⟩ := (h _ hc).2 rfl
        obtain ⟨ps', hps', hq'⟩ := (inv.extra k q).2 ⟨c', hq⟩
        have : ps' = ps := by
          have h1 := inv.keys
          exact nodup_keys h1 hps' hx
        subst this
        exact List.any_eq_true.2 ⟨q, hq', hl⟩
  constructor
  · rintro ⟨F, hF, hu⟩
    have hne : addExtras st.extra st.piece ≠ [] := by
      intro e
      have hex : ∃ t, ftext F = some t := by cases F <;> simp [ftext, Face.Used] at hu ⊢
      obtain ⟨t, ht⟩ := hex
      have := (hmem t).2 (.inl ⟨F, hF, ht⟩)
      rw [e] at this; cases this
    have hread : ∀ σ, ∃ b, Means σ (pieceText faces) b ∧ (b = true ↔ PieceHolds σ faces) := by
      intro σ
      obtain ⟨b, h1, h2⟩ := join_sound hne hsound σ
      refine ⟨b, by rw [hp]; exact .single h1, ?_⟩
      rw [h2, hiff]
      exact ⟨fun h => ⟨⟨F, hF, hu⟩, h⟩, fun h => h.2⟩
    have huniq : ∀ σ b, Means σ (pieceText faces) b → (b = true ↔ PieceHolds σ faces) := by
      intro σ b hb
      obtain ⟨c, h1, h2⟩ := hread σ
      rw [C16_unambiguous σ _ b c hb h1]; exact h2
    -- a point at which the face does not hold
    have hfalse : ∃ σ, ¬ F.Holds σ faces := by
      have hnum := hn F hF
      have lf : ∀ n : Int, n ≠ 0 → lit (fun _ => decide (n < 0)) n = false := by
        intro n h0; unfold lit; split <;> simp <;> omega
      cases F with
      | ignored => exact absurd hu (by simp [Face.Used])
      | oblique => exact absurd hu (by simp [Face.Used])
      | reversed c id plane => exact ⟨fun _ => decide (id < 0), by simp [Face.Holds, lf id hnum.1]⟩
      | other c var => exact ⟨fun _ => decide (var < 0), by simp [Face.Holds, lf var hnum]⟩
      | torus i v u =>
        cases v with
        | whole n => exact ⟨fun _ => decide (n < 0), by simp [Face.Holds, VCut.Holds, lf n hnum.2.1]⟩
        | cut n m => exact ⟨fun _ => decide (n < 0), by simp [Face.Holds, VCut.Holds, lf n hnum.2.1.1]⟩
    refine ⟨?_, ?_, ?_, huniq⟩
    · intro e
      obtain ⟨b, h1, _⟩ := hread (fun _ => true)
      rw [e] at h1
      have := Reads.nums_pos h1
      simp [solid, nums] at this
    · obtain ⟨b, h1, _⟩ := hread (fun _ => true)
      exact ⟨_, b, h1⟩
    · obtain ⟨σ, hσ⟩ := hfalse
      obtain ⟨b, h1, h2⟩ := hread σ
      cases b with
      | false => exact ⟨σ, h1⟩
      | true => exact absurd ((h2.1 rfl).2 F hF) hσ
  · intro hno
    have hnil : addExtras st.extra st.piece = [] := by
      apply List.eq_nil_iff_forall_not_mem.2
      intro t ht
      rcases (hmem t).1 ht with ⟨F, hF, e⟩ | ⟨x, hx, _⟩
      · apply hno
        refine ⟨F, hF, ?_⟩
        cases F <;> simp [ftext] at e <;> simp [Face.Used]
      · obtain ⟨p, hp⟩ := List.exists_mem_of_ne_nil _ (inv.ne _ hx)
        obtain ⟨c, hc⟩ := (inv.extra x.1 p).1 ⟨x.2, hx, hp⟩
        exact hno ⟨_, hc, by simp [Face.Used]⟩
    rw [hp, hnil]; rfl
where
  nodup_keys : ∀ {e : List (Int × List Int)} {k : Int} {a b : List Int}, (e.map Prod.fst).Nodup → (k, a) ∈ e → (k, b) ∈ e → a = b := by
    intro e
    induction e with
    | nil => intro k a b _ h; cases h
    | cons x e ih =>
      intro k a b hn ha hb
      simp only [List.map_cons, List.nodup_cons] at hn
      rcases List.mem_cons.1 ha with ha | ha <;> rcases List.mem_cons.1 hb with hb | hb
      · rw [← ha] at hb; cases hb; rfl
      · exact absurd (List.mem_map.2 ⟨_, hb, by rw [← ha]⟩) hn.1
      · exact absurd (List.mem_map.2 ⟨_, ha, by rw [← hb]⟩) hn.1
      · exact ih hn.2 ha hb

end Geouned.Conv
