import Verif.Rev.AgainLemmas
import Verif.Rev.CardsProps
/-!
# C69: several builds one after the other; C70: the container cell
-/
namespace Geouned.Rev
open Geouned.Text

/-- C69: After a file has been read, universes can be built several times, with the filters changed between the builds: every time the cells are those of the cards, as
if it were the first build. -/
def C69_statement : Prop :=
  ∀ (P : Type) [Inhabited P] (σ : P → Side) (cards : List (DCard P)) (cell : P → Nat → Bool) (ρ : Nat → Nat) (surfs : List (Surf P))
    (order : List Nat → List Nat) (f : Nat) (rs : List Req),
    SoundFile cards (fun n => n ∈ surfs.map (·.name)) ρ → InDeck σ cards cell → (∀ r ∈ rs, PlainFile cards (r.keep.getD fun _ => true)) →
    surfs.map (·.id) = List.range' 1 surfs.length → (∀ s ∈ surfs, ∀ p, σ p s.name = s.pos p) →
    (∀ l, (order l).Perm l) → (∀ n, ρ n < f) →
    ∃ out, readAll order f surfs cards rs = .ok out ∧ out.length = rs.length ∧
      ∀ k (h : k < out.length) (h' : k < rs.length), out[k].1.length = rs[k].us.length ∧
        ∀ i (g : i < out[k].1.length) (g' : i < rs[k].us.length), RightCells cards cell (rs[k].keep.getD fun _ => true) out[k].2.get rs[k].us[i] out[k].1[i]

theorem keeps_eq (r : Req) : r.keeps = r.keep.getD fun _ => true := by
  funext n
  unfold Req.keeps
  cases r.keep <;> rfl

theorem readLoop_spec {P : Type} [Inhabited P] {σ : P → Side} {cards : List (DCard P)} {cell : P → Nat → Bool} {ρ : Nat → Nat}
    {surfs : List (Surf P)} {order : List Nat → List Nat} {f : Nat}
    (hs : SoundFile cards (named surfs) ρ) (hl : NoLike cards) (hin : InDeck σ cards cell)
    (hid : surfs.map (·.id) = List.range' 1 surfs.length) (hin' : ∀ s ∈ surfs, s.id = s.name) (hσ : ∀ s ∈ surfs, ∀ p, σ p s.name = s.pos p)
    (ho : ∀ l, (order l).Perm l) (hf : ∀ n, ρ n < f) : ∀ (rs : List Req) (cs : List (DCard P)), SInv cards (named surfs) σ cell cs → (∀ r ∈ rs, r.keep.isSome = true) →
    ∃ out, readLoop order f (markedIn cards) surfs ⟨cs, []⟩ rs = .ok out ∧ out.length = rs.length ∧
      ∀ k (h : k < out.length) (h' : k < rs.length), out[k].1.length = rs[k].us.length ∧
        ∀ i (g : i < out[k].1.length) (g' : i < rs[k].us.length), RightCells cards cell rs[k].keeps out[k].2.get rs[k].us[i] out[k].1[i]
  | [], _, _, _ => ⟨[], rfl, rfl, fun k h => by cases h⟩
  | r :: rs, cs, hi, hr => by
    obtain ⟨us, S, cs', e1, e2, e3, e4⟩ := readAgain_spec hs hl hin hid hin' hσ order ho f hf hi r (hr r (by simp))
    obtain ⟨out, o1, o2, o3⟩ := readLoop_spec hs hl hin hid hin' hσ ho hf rs cs' e2 fun x hx => hr x (by simp [hx])
    refine ⟨(us, S) :: out, ?_, by simp [o2], ?_⟩
    · unfold readLoop
      simp only [e1, bind, Except.bind, o1]
    · intro k h h'
      cases k with
      | zero => exact ⟨e3, e4⟩
      | succ k => exact o3 k (by simpa using h) (by simpa using h')

/-- C69 when there is no `LIKE` and no `TRCL`, the surfaces are named 1, 2, ..., and every build filters (by cell or material). -/
theorem C69_builds_partial {P : Type} [Inhabited P] (σ : P → Side) (cards : List (DCard P)) (cell : P → Nat → Bool) (ρ : Nat → Nat) (surfs : List (Surf P))
    (order : List Nat → List Nat) (f : Nat) (rs : List Req)
    (hs : SoundFile cards (fun n => n ∈ surfs.map (·.name)) ρ) (hin : InDeck σ cards cell)
    (hl : ∀ c ∈ cards, c.like = none ∧ c.trcl = none) (hr : ∀ r ∈ rs, r.keep.isSome = true) (hn : ∀ s ∈ surfs, s.id = s.name)
    (hid : surfs.map (·.id) = List.range' 1 surfs.length) (hσ : ∀ s ∈ surfs, ∀ p, σ p s.name = s.pos p)
    (ho : ∀ l, (order l).Perm l) (hf : ∀ n, ρ n < f) :
    ∃ out, readAll order f surfs cards rs = .ok out ∧ out.length = rs.length ∧
      ∀ k (h : k < out.length) (h' : k < rs.length), out[k].1.length = rs[k].us.length ∧
        ∀ i (g : i < out[k].1.length) (g' : i < rs[k].us.length), RightCells cards cell (rs[k].keep.getD fun _ => true) out[k].2.get rs[k].us[i] out[k].1[i] := by
  have hl : NoLike cards := hl
  obtain ⟨cells, e1, e2, e3⟩ := explicit_spec hs.names (hl.plain fun _ => true) (cards.map (·.name)) [] cards (by simp) rfl
    fun c hc => ⟨fun _ => cellAt_of_mem hs.names hc, fun h => by cases h⟩
  have hi : SInv cards (named surfs) σ cell cells := by
    refine ⟨e2, fun c hc => ⟨c.geom, ?_, .inl rfl⟩⟩
    obtain ⟨r, h1, h2⟩ := e3 c hc
    rw [hl.resolves hc] at h1
    subst h1
    exact h2
  obtain ⟨out, o1, o2⟩ := readLoop_spec hs hl hin hid hn hσ ho hf rs cells hi hr
  refine ⟨out, ?_, o2.1, fun k h h' => ⟨(o2.2 k h h').1, fun i g g' => keeps_eq rs[k] ▸ (o2.2 k h h').2 i g g'⟩⟩
  unfold readAll
  simp only [e1, bind, Except.bind]
  exact o1

/-! ## examples -/

/-- cell 1: inside surface 1. Cell 2: inside 2 and outside cell 1 -/
def twiceFile : List (DCard Int) := [plainCard 1 1 [.num (-1)], plainCard 2 2 [.num (-2), .blank, .hash, .num 1]]

def twiceSurfs : List (Surf Int) := [⟨1, 1, fun p => decide (3 ≤ p.natAbs)⟩, ⟨2, 2, fun p => decide (10 ≤ p.natAbs)⟩]

def twiceσ (p : Int) : Side := fun n => if n = 1 then decide (3 ≤ p.natAbs) else decide (10 ≤ p.natAbs)

def twiceCell (p : Int) (n : Nat) : Bool := if n = 1 then !decide (3 ≤ p.natAbs) else !decide (10 ≤ p.natAbs) && !!decide (3 ≤ p.natAbs)

theorem twice_mem {c : DCard Int} (h : c ∈ twiceFile) : c = plainCard 1 1 [.num (-1)] ∨ c = plainCard 2 2 [.num (-2), .blank, .hash, .num 1] := by
  simpa [twiceFile] using h

theorem twice_noLike : ∀ c ∈ twiceFile, c.like = none ∧ c.trcl = none := by
  intro c hc
  rcases twice_mem hc with rfl | rfl <;> exact ⟨rfl, rfl⟩

theorem twice_mentions {n : Nat} (h : mentions [.num (-2), .blank, .hash, .num 1] n) : n = 1 := by
  obtain ⟨a, b, e⟩ := hmentions_cons (hmentions_cons h (by simp)) (by simp)
  simp only [hsolid] at e
  match a, e with
  | [], e => simp at e; omega
  | [x], e => simp at e
  | x :: y :: a, e => simp at e

theorem twice_sound : SoundFile twiceFile (fun n => n ∈ twiceSurfs.map (·.name)) (fun n => min n 3) where
  names := by decide
  resolves := by
    intro c hc
    rcases twice_mem hc with rfl | rfl <;> exact ⟨_, .own rfl⟩
  spaced := by
    intro c hc _
    rcases twice_mem hc with rfl | rfl <;> simp [plainCard, Spaced, isNumH]
  surfaces := by
    intro c hc _ n hn
    obtain ⟨a, m, b, e, rfl, hh⟩ := hn
    rcases twice_mem hc with rfl | rfl
    · have hm : HTok.num m ∈ hsolid [HTok.num (-1)] := by
        have e : hsolid [HTok.num (-1)] = _ := e
        rw [e]; simp
      simp [hsolid] at hm; subst hm; decide
    · have e' : [HTok.num (-2), .hash, .num 1] = a ++ .num m :: b := e
      match a, e' with
      | [], e' => cases e'; decide
      | [_], e' => cases e'
      | [x, y], e' => cases e'; exact absurd ⟨by decide, [_], rfl⟩ hh
      | x :: y :: z :: a, e' => simp at e'
  hash := by
    intro c hc _ m hm
    rcases twice_mem hc with rfl | rfl
    · exact absurd hm no_mentions
    · cases twice_mentions hm
      refine ⟨by decide, plainCard 1 1 [.num (-1)], by simp [twiceFile], rfl, ?_⟩
      intro r r' h1 h2
      have hl : NoLike twiceFile := twice_noLike
      rw [(hl.resolves (by simp [twiceFile])).1 h1, (hl.resolves (by simp [twiceFile])).1 h2]
      rfl

theorem twice_deck : InDeck twiceσ twiceFile twiceCell := by
  intro c hc r hr p
  have hl : NoLike twiceFile := twice_noLike
  rw [(hl.resolves hc).1 hr]
  rcases twice_mem hc with rfl | rfl
  · exact .single (.one (.num (-1) (by decide)))
  · exact .single (.and (t := [.num (-2)]) (u := [.hash, .num 1]) (.num (-2) (by decide)) (.one (.hashCell 1)))

theorem twice_sides : ∀ s ∈ twiceSurfs, ∀ p, twiceσ p s.name = s.pos p := by
  intro s hs p
  have hs : s = ⟨1, 1, fun p => decide (3 ≤ p.natAbs)⟩ ∨ s = ⟨2, 2, fun p => decide (10 ≤ p.natAbs)⟩ := by simpa [twiceSurfs] using hs
  rcases hs with rfl | rfl <;> rfl

/-- three builds: all cells (as given by a range of materials), only cell 2, all again -/
example : ∃ out, readAll id 5 twiceSurfs twiceFile [⟨some fun _ => true, [0]⟩, ⟨some fun n => n = 2, [0]⟩, ⟨some fun _ => true, [0]⟩] = .ok out ∧ out.length = 3 := by
  obtain ⟨out, h1, h2, -⟩ := C69_builds_partial twiceσ twiceFile twiceCell (fun n => min n 3) twiceSurfs id 5
    [⟨some fun _ => true, [0]⟩, ⟨some fun n => n = 2, [0]⟩, ⟨some fun _ => true, [0]⟩] twice_sound twice_deck twice_noLike (by simp) (by decide) rfl twice_sides
    (fun l => .refl l) (fun n => by omega)
  exact ⟨out, h1, h2⟩

/-! ## what goes wrong -/

/-- C69 is false: without filters the second build fails. The objects of the universe have been replaced by those of the first build, which are not cards. -/
theorem C69_violated : ¬ C69_statement := by
  intro h
  obtain ⟨out, h1, -⟩ := h Int twiceσ twiceFile twiceCell (fun n => min n 3) twiceSurfs id 5 [⟨none, [0]⟩, ⟨none, [0]⟩] twice_sound twice_deck
    (fun r _ => NoLike.plain twice_noLike _) rfl twice_sides (fun l => .refl l) (fun n => by omega)
  have : readAll id 5 twiceSurfs twiceFile [⟨none, [0]⟩, ⟨none, [0]⟩] = .error .attributeError := rfl
  rw [h1] at this
  cases this

/-- A build without filters, then one with filters: fails also. -/
theorem C69_then_filter_violated : readAll id 5 twiceSurfs twiceFile [⟨none, [0]⟩, ⟨some fun n => n = 2, [0]⟩] = .error .attributeError := rfl

/-- The surfaces are named 2 and 1, in this order: in the second build the names are changed again. Cell 1 (`-2`) is first `-1` (surface 2, as it should), then `-2`
(surface 1). -/
theorem C69_renamed_twice_violated : ∃ c d : DCard Int, ∃ S T,
    readAll id 5 [⟨2, 1, fun p => decide (3 ≤ p.natAbs)⟩, ⟨1, 2, fun p => decide (10 ≤ p.natAbs)⟩] [plainCard 1 1 [.num (-2)]]
      [⟨some fun _ => true, [0]⟩, ⟨some fun _ => true, [0]⟩] = .ok [([[c]], S), ([[d]], T)] ∧
    c.geom = [.num (-1)] ∧ d.geom = [.num (-2)] ∧ (∀ p, S.get 1 = some p ↔ T.get 1 = some p) ∧ S.get 1 ≠ T.get 2 := by
  refine ⟨_, _, _, _, rfl, rfl, rfl, fun p => Iff.rfl, ?_⟩
  intro h
  have := congrFun (Option.some.inj h) 5
  revert this
  decide

/-- Surfaces named 10, 20: in the second build there is no surface 1. -/
theorem C69_names_violated :
    readAll id 5 [⟨10, 1, fun p : Int => decide (3 ≤ p.natAbs)⟩, ⟨20, 2, fun p => decide (10 ≤ p.natAbs)⟩] [plainCard 1 1 [.num (-10)]]
      [⟨some fun _ => true, [0]⟩, ⟨some fun _ => true, [0]⟩] = .error .keyError := rfl

/-- A cell `LIKE 1 BUT TRCL=(20 0 0)`: its text has the number of the moved surface, which the second build does not find. -/
theorem C69_trcl_violated :
    readAll id 5 twiceSurfs [plainCard 1 1 [.num (-1)], likeCard 2 1 20] [⟨some fun _ => true, [0]⟩, ⟨some fun _ => true, [0]⟩] = .error .keyError := rfl

/-! ## C70 -/

/-- C70: The container cell of `build_container` is what its card says. -/
def C70_statement : Prop :=
  ∀ (P : Type) (σ : P → Side) (cards : List (DCard P)) (cell : P → Nat → Bool) (ρ : Nat → Nat) (surfs : List (Surf P)),
    SoundFile cards (fun n => n ∈ surfs.map (·.name)) ρ → InDeck σ cards cell → PlainFile cards (fun _ => true) →
    surfs.map (·.id) = List.range' 1 surfs.length → (∀ s ∈ surfs, ∀ p, σ p s.name = s.pos p) →
    ∀ c ∈ cards, ∃ d S, getCell surfs cards c.name = .ok (d, S) ∧ IsCell cards cell S.get c d

/-- C70 for cells without `LIKE`, `TRCL`, `#`. -/
theorem C70_container_partial {P : Type} (σ : P → Side) (cards : List (DCard P)) (cell : P → Nat → Bool) (ρ : Nat → Nat) (surfs : List (Surf P))
    (hs : SoundFile cards (fun n => n ∈ surfs.map (·.name)) ρ) (hin : InDeck σ cards cell)
    (hid : surfs.map (·.id) = List.range' 1 surfs.length) (hσ : ∀ s ∈ surfs, ∀ p, σ p s.name = s.pos p)
    (c : DCard P) (hc : c ∈ cards) (hlike : c.like = none) (htr : c.trcl = none) (hh : .hash ∉ c.geom) (p : P) :
    ∃ d S, getCell surfs cards c.name = .ok (d, S) ∧ IsCell cards cell S.get c d := by
  have hr : Resolves cards c _ := .own hlike
  have huniq : ∀ r, Resolves cards c r → r = ⟨c.mat, c.u, c.fill, c.tr, c.trcl, c.geom⟩ := fun r h => resolves_unique hs.names h hr
  have hm : ∀ q, HMeans (σ q) (cell q) c.geom (cell q c.name) := by
    intro q
    have := hin c hc _ hr q
    simpa only [htr, before] using this
  obtain ⟨us, he, -⟩ := hmeans_noHash (hm p) hh
  have hk : ∀ n, Tok.num n ∈ us → named surfs n.natAbs := by
    intro n hn
    refine hs.surfaces c hc hlike _ ?_
    have : HTok.num n ∈ hsolid c.geom := List.mem_filter.2 ⟨by rw [he]; exact num_emb.2 hn, by simp⟩
    obtain ⟨a, b, e⟩ := List.append_of_mem this
    refine ⟨a, n, b, e, rfl, ?_⟩
    rintro ⟨-, a', rfl⟩
    refine hh (List.mem_filter.1 (?_ : _ ∈ hsolid c.geom)).1
    rw [e]; simp
  obtain ⟨ws, w1, w2, w3⟩ := textFor_ren (geom := c.geom) (cell := cell) hid hσ hk fun q v hv => by
    obtain ⟨us', e', h'⟩ := hmeans_noHash hv hh
    rw [he] at e'
    rw [map_emb_inj e']
    exact h'
  have e := rename_emb (new := idOf surfs) (f := idf surfs) (us := us) fun n hn => (idOf_spec hid hσ (hk n hn)).1
  have er : renOf surfs (us.map emb) = (us.map (mapNum (idf surfs))).map emb := by unfold renOf; rw [e]
  refine ⟨{ c with geom := ws.map emb }, byId surfs, ?_, ⟨rfl, ?_, ?_, ?_, ?_, ws, rfl, fun n hn => (w2 n hn).2, fun q => w3 q _ (hm q)⟩⟩
  · have e1 : cellAt cards c.name = some c := cellAt_of_mem hs.names hc
    have e2 : explicitLoop [c.name] [c] = .ok [c] := by
      simp [explicitLoop, cellAt, hlike]
    have e3 : renameLoop (idOf surfs) false c.geom = .ok (ws.map emb) := by rw [he, e, ← er, w1]
    unfold getCell
    rw [e1]
    simp only [e2, bind, Except.bind, e3]
    rfl
  all_goals intro r h; rw [huniq r h]
  intro _
  show c.tr = (c.tr <|> c.trcl)
  rw [htr]
  cases c.tr <;> rfl

/-- cell 1 of `twiceFile` -/
example : ∃ d S, getCell twiceSurfs twiceFile 1 = .ok (d, S) ∧ IsCell twiceFile twiceCell S.get (plainCard 1 1 [.num (-1)]) d :=
  C70_container_partial twiceσ twiceFile twiceCell (fun n => min n 3) twiceSurfs twice_sound twice_deck rfl twice_sides (plainCard 1 1 [.num (-1)])
    (by simp [twiceFile]) rfl rfl (by simp [plainCard]) 0

/-- C70 is false: a container cell with `#` keeps it in its text, so that its region cannot be built. -/
theorem C70_violated : ¬ C70_statement := by
  intro h
  obtain ⟨d, S, h1, h2⟩ := h Int twiceσ twiceFile twiceCell (fun n => min n 3) twiceSurfs twice_sound twice_deck (NoLike.plain twice_noLike _) rfl twice_sides
    (plainCard 2 2 [.num (-2), .blank, .hash, .num 1]) (by simp [twiceFile])
  have : ∃ S, getCell twiceSurfs twiceFile 2 = .ok (plainCard 2 2 [.num (-2), .blank, .hash, .num 1], S) := ⟨_, rfl⟩
  obtain ⟨S', this⟩ := this
  rw [show (plainCard 2 2 [.num (-2), .blank, .hash, .num 1]).name = 2 from rfl, this] at h1
  cases h1
  obtain ⟨us, e, -⟩ := h2.region
  have hm : HTok.hash ∈ us.map emb := by rw [← e]; simp [plainCard]
  obtain ⟨t, -, ht⟩ := List.mem_map.1 hm
  exact emb_ne_hash t ht

/-- A container cell that is a `LIKE` card cannot be built. -/
theorem C70_like_violated : getCell lineSurfs likeFile 3 = .error .keyError := rfl

/-- `TRCL` is not applied to the container cell: `5 TRCL=(5 0 0)` has the region of `5`. -/
theorem C70_trcl_violated : ∃ d S, getCell lineSurfs [⟨1, none, some 0, none, some 1, none, some (shiftBy 5), [.num 5]⟩] 1 = .ok (d, S) ∧ d.geom = [.num 1] ∧
    S.get 1 = some fun p => decide (3 ≤ p.natAbs) := ⟨_, _, rfl, rfl, rfl⟩

end Geouned.Rev
