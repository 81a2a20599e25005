import Verif.Rev.CardsLemmas5
import Verif.Rev.Again
/-!
# C69: lemmas on builds one after the other
-/
namespace Geouned.Rev
open Geouned.Text

section
variable {P : Type} {σ : P → Side} {cell : P → Nat → Bool} {cards : List (DCard P)} {ρ : Nat → Nat} {surfs : List (Surf P)}

/-- no `LIKE`, no `TRCL` -/
def NoLike (cards : List (DCard P)) : Prop := ∀ c ∈ cards, c.like = none ∧ c.trcl = none

theorem NoLike.plain (h : NoLike cards) (keep : Nat → Bool) : PlainFile cards keep where
  order := by
    intro pre c post e b hb
    have := (h c (by rw [e]; simp)).1
    rw [this] at hb
    cases hb
  given := fun c hc hl => absurd (h c hc).1 hl
  sameU := by
    intro c hc d _ hl
    rw [(h c hc).1] at hl
    cases hl
  kept := by
    intro c hc d _ hl
    rw [(h c hc).1] at hl
    cases hl
  noHash := fun c hc _ ht => absurd (h c hc).2 ht
  hashPlain := fun _ _ _ d hd _ => h d hd
  fillTr := by
    intro c hc r hr ht
    cases hr with
    | own _ => exact absurd (h c hc).2 ht
    | like hl => rw [(h c hc).1] at hl; cases hl

theorem NoLike.resolves (h : NoLike cards) {c : DCard P} (hc : c ∈ cards) {r : Entries P} : Resolves cards c r ↔ r = ⟨c.mat, c.u, c.fill, c.tr, c.trcl, c.geom⟩ := by
  constructor
  · intro hr
    cases hr with
    | own _ => rfl
    | like hl => rw [(h c hc).1] at hl; cases hl
  · rintro rfl
    exact .own (h c hc).1

theorem NoLike.marked (h : NoLike cards) : markedIn cards = fun _ => false := by
  funext n
  unfold markedIn
  cases e : cellAt cards n with
  | none => rfl
  | some c =>
    obtain ⟨h1, h2⟩ := h c (cellAt_mem e).1
    simp [h1, h2]

/-- the objects between two builds -/
structure SInv (cards : List (DCard P)) (A : Nat → Prop) (σ : P → Side) (cell : P → Nat → Bool) (cs : List (DCard P)) : Prop where
  names : cs.map (·.name) = cards.map (·.name)
  cells : ∀ c ∈ cards, ∃ g, cellAt cs c.name = some { c with geom := g } ∧ (g = c.geom ∨ Clean A σ cell g c.name)

variable {A : Nat → Prop} {cs : List (DCard P)}

theorem SInv.card (hn : (cards.map (·.name)).Nodup) (h : SInv cards A σ cell cs) {x : DCard P} (hx : x ∈ cs) :
    ∃ c ∈ cards, ∃ g, x = { c with geom := g } ∧ (g = c.geom ∨ Clean A σ cell g c.name) := by
  have : x.name ∈ cards.map (·.name) := by rw [← h.names]; exact List.mem_map.2 ⟨x, hx, rfl⟩
  obtain ⟨c, hc, e⟩ := List.mem_map.1 this
  obtain ⟨g, h1, h2⟩ := h.cells c hc
  refine ⟨c, hc, g, ?_, h2⟩
  have e : c.name = x.name := e
  have h3 := cellAt_of_mem (cs := cs) (by rw [h.names]; exact hn) hx
  rw [← e, h1] at h3
  exact (Option.some.inj h3).symm

theorem SInv.noLike (hn : (cards.map (·.name)).Nodup) (hl : NoLike cards) (h : SInv cards A σ cell cs) : NoLike cs := by
  intro x hx
  obtain ⟨c, hc, g, rfl, -⟩ := h.card hn hx
  exact hl c hc

theorem SInv.sound (hs : SoundFile cards A ρ) (hl : NoLike cards) (h : SInv cards A σ cell cs) : SoundFile cs A ρ where
  names := by rw [h.names]; exact hs.names
  resolves := fun x hx => ⟨_, .own (h.noLike hs.names hl x hx).1⟩
  spaced := by
    intro x hx _
    obtain ⟨c, hc, g, rfl, rfl | ⟨us, -, h2, -⟩⟩ := h.card hs.names hx
    · exact hs.spaced c hc (hl c hc).1
    · exact h2
  surfaces := by
    intro x hx _ n hn
    obtain ⟨c, hc, g, rfl, rfl | ⟨us, -, -, h2, -⟩⟩ := h.card hs.names hx
    · exact hs.surfaces c hc (hl c hc).1 n hn
    · obtain ⟨a, m, b, e, rfl, -⟩ := hn
      have : HTok.num m ∈ hsolid g := by
        have e : hsolid g = a ++ .num m :: b := e
        rw [e]; simp
      exact h2 m (List.mem_filter.1 this).1
  hash := by
    intro x hx _ m hm
    obtain ⟨c, hc, g, rfl, rfl | ⟨us, h1, -⟩⟩ := h.card hs.names hx
    · obtain ⟨h1, d, hd, h2, h3⟩ := hs.hash c hc (hl c hc).1 m hm
      refine ⟨h1, ?_⟩
      obtain ⟨g, k1, k2⟩ := h.cells d hd
      refine ⟨{ d with geom := g }, (cellAt_mem k1).1, h2, ?_⟩
      intro r r' hr hr'
      rw [(h.noLike hs.names hl).resolves hx] at hr
      rw [(h.noLike hs.names hl).resolves (cellAt_mem k1).1] at hr'
      have := h3 _ _ ((hl.resolves hc).2 rfl) ((hl.resolves hd).2 rfl)
      rw [hr, hr']
      exact this
    · subst h1
      exact absurd hm (noMentions_emb us m)

theorem SInv.inDeck (hs : SoundFile cards A ρ) (hl : NoLike cards) (hin : InDeck σ cards cell) (h : SInv cards A σ cell cs) : InDeck σ cs cell := by
  intro x hx r hr p
  rw [(h.noLike hs.names hl).resolves hx] at hr
  subst hr
  obtain ⟨c, hc, g, rfl, hg⟩ := h.card hs.names hx
  have h0 := hin c hc _ ((hl.resolves hc).2 rfl) p
  simp only [(hl c hc).2, before] at h0 ⊢
  rcases hg with rfl | ⟨us, rfl, -, -, hm⟩
  · exact h0
  · exact .of_means (hm p)

theorem SInv.right (hs : SoundFile cards A ρ) (hl : NoLike cards) (h : SInv cards A σ cell cs) {keep : Nat → Bool} {S : Nat → Option (P → Bool)} {U : Nat} {u : List (DCard P)}
    (hr : RightCells cs cell keep S U u) : RightCells cards cell keep S U u := by
  have hnl := h.noLike hs.names hl
  refine ⟨by rw [← h.names]; exact hr.order, ?_, ?_⟩
  · intro n
    rw [hr.names]
    refine and_congr_right fun _ => ?_
    constructor
    · rintro ⟨x, hx, hxn, r, h1, h2⟩
      obtain ⟨c, hc, g, rfl, -⟩ := h.card hs.names hx
      rw [hnl.resolves hx] at h1
      subst h1
      exact ⟨c, hc, hxn, _, (hl.resolves hc).2 rfl, h2⟩
    · rintro ⟨c, hc, rfl, r, h1, h2⟩
      rw [hl.resolves hc] at h1
      subst h1
      obtain ⟨g, k1, -⟩ := h.cells c hc
      exact ⟨_, (cellAt_mem k1).1, rfl, _, (hnl.resolves (cellAt_mem k1).1).2 rfl, h2⟩
  · intro d hd
    obtain ⟨x, hx, hi⟩ := hr.cells d hd
    obtain ⟨c, hc, g, rfl, -⟩ := h.card hs.names hx
    refine ⟨c, hc, hi.name, ?_, ?_, ?_, ?_, hi.region⟩
    all_goals
      intro r h1
      rw [hl.resolves hc] at h1
      subst h1
    · exact hi.mat ⟨c.mat, c.u, c.fill, c.tr, c.trcl, g⟩ ((hnl.resolves hx).2 rfl)
    · exact hi.u ⟨c.mat, c.u, c.fill, c.tr, c.trcl, g⟩ ((hnl.resolves hx).2 rfl)
    · exact hi.fill ⟨c.mat, c.u, c.fill, c.tr, c.trcl, g⟩ ((hnl.resolves hx).2 rfl)
    · exact hi.place ⟨c.mat, c.u, c.fill, c.tr, c.trcl, g⟩ ((hnl.resolves hx).2 rfl)

theorem copy_noLike : ∀ (ns : List Nat) (cs : List (DCard P)), (∀ n ∈ ns, n ∈ cs.map (·.name)) → NoLike cs → copyLoop ns cs = .ok cs
  | [], _, _, _ => rfl
  | n :: ns, cs, h, hl => by
    obtain ⟨c, hc⟩ := cellAt_some (h n (by simp))
    unfold copyLoop
    rw [hc]
    dsimp only
    rw [(hl c (cellAt_mem hc).1).1]
    exact copy_noLike ns cs (fun m hm => h m (by simp [hm])) hl

theorem trcl_noLike (order : List Nat → List Nat) : ∀ (cs : List (DCard P)) (k : Nat) (S : SDict P), NoLike cs → trclLoop order cs k S = .ok (cs, S)
  | [], _, _, _ => rfl
  | c :: cs, k, S, hl => by
    have ih := trcl_noLike order cs k S fun x hx => hl x (by simp [hx])
    unfold trclLoop
    rw [(hl c (by simp)).2]
    simp only [ih, bind, Except.bind]

theorem subst_noLike (order : List Nat → List Nat) : ∀ (us : List (List (DCard P))) (S : SDict P), (∀ u ∈ us, NoLike u) → substituteAll order us S = .ok (us, S)
  | [], _, _ => rfl
  | u :: us, S, h => by
    have ih := subst_noLike order us S fun v hv => h v (by simp [hv])
    have hu := h u (by simp)
    simp only [substituteAll, substituteLike, copy_noLike _ u (fun n hn => hn) hu, trcl_noLike order u _ S hu, ih, bind, Except.bind]

theorem renOf_same (hid : ∀ s ∈ surfs, s.id = s.name) {us : List Tok} (hk : ∀ n, Tok.num n ∈ us → named surfs n.natAbs) : renOf surfs (us.map emb) = us.map emb := by
  have e := rename_emb (new := idOf surfs) (f := id) (us := us) fun n hn => by
    unfold idOf
    cases e : surfs.find? (fun s => s.name = n.natAbs) with
    | none =>
      rw [List.find?_eq_none] at e
      obtain ⟨s, h1, h2⟩ := List.mem_map.1 (hk n hn)
      exact absurd h2 (by simpa using e s h1)
    | some s =>
      have hs := List.mem_of_find?_eq_some e
      have hsn : s.name = n.natAbs := by simpa using List.find?_some e
      dsimp only
      rw [hid s hs, hsn]
      rfl
  unfold renOf
  rw [e, mapNum_id]

theorem clean_ren (hid : ∀ s ∈ surfs, s.id = s.name) {g : List HTok} {n : Nat} (h : Clean (named surfs) σ cell g n) : renOf surfs g = g := by
  obtain ⟨us, rfl, -, hk, -⟩ := h
  exact renOf_same hid fun n hn => hk n (num_emb.2 hn)

theorem writeBack_inv (hn : (cards.map (·.name)).Nodup) : ∀ (ds cs : List (DCard P)), SInv cards A σ cell cs →
    (∀ d ∈ ds, ∃ c ∈ cards, ∃ g, d = { c with geom := g } ∧ Clean A σ cell g c.name) → SInv cards A σ cell (ds.foldl setCell cs)
  | [], _, h, _ => h
  | d :: ds, cs, h, hd => by
    rw [List.foldl_cons]
    refine writeBack_inv hn ds _ ?_ fun x hx => hd x (by simp [hx])
    obtain ⟨c, hc, g, rfl, hg⟩ := hd d (by simp)
    refine ⟨(setCell_names _ _).trans h.names, fun x hx => ?_⟩
    rw [cellAt_set]
    obtain ⟨g', k1, k2⟩ := h.cells x hx
    by_cases hxc : x.name = c.name
    · have : x = c := by
        have a := cellAt_of_mem hn hx
        have b := cellAt_of_mem hn hc
        rw [hxc, b] at a
        exact (Option.some.inj a).symm
      subst this
      exact ⟨g, by rw [k1]; simp, .inr hg⟩
    · exact ⟨g', by rw [if_neg (show ¬ x.name = ({ c with geom := g } : DCard P).name from hxc)]; exact k1, k2⟩

theorem again_noCad {marked : Nat → Bool} {f : Nat} {keep : Nat → Bool} : ∀ Us, readUniversesAgain marked f keep surfs ⟨cs, []⟩ Us = readUniverses marked f keep surfs cs Us
  | [] => rfl
  | U :: Us => by
    have : readUniverseAgain marked f keep surfs ⟨cs, []⟩ U = readUniverse marked f keep surfs cs U := by
      unfold readUniverseAgain
      rw [if_neg (by simp)]
    simp only [readUniversesAgain, readUniverses, this, again_noCad Us]

theorem readAgain_spec [Inhabited P] (hs : SoundFile cards (named surfs) ρ) (hl : NoLike cards) (hin : InDeck σ cards cell)
    (hid : surfs.map (·.id) = List.range' 1 surfs.length) (hin' : ∀ s ∈ surfs, s.id = s.name) (hσ : ∀ s ∈ surfs, ∀ p, σ p s.name = s.pos p)
    (order : List Nat → List Nat) (ho : ∀ l, (order l).Perm l) (f : Nat) (hf : ∀ n, ρ n < f) (h : SInv cards (named surfs) σ cell cs) (r : Req) (hr : r.keep.isSome = true) :
    ∃ us S cs', readAgain order f (markedIn cards) surfs ⟨cs, []⟩ r = .ok ((us, S), ⟨cs', []⟩) ∧ SInv cards (named surfs) σ cell cs' ∧ us.length = r.us.length ∧
      ∀ i (h : i < us.length) (h' : i < r.us.length), RightCells cards cell r.keeps S.get r.us[i] us[i] := by
  have hnl := h.noLike hs.names hl
  have hs' := h.sound hs hl
  have hin2 := h.inDeck hs hl hin
  have hcn : ∀ c ∈ cs, ∃ r, Resolves cs c r ∧ cellAt cs c.name = some (withE c r) := fun c hc =>
    ⟨_, (hnl.resolves hc).2 rfl, cellAt_of_mem hs'.names hc⟩
  obtain ⟨us, u1, u2, u3, u4⟩ := readUniverses_spec hs' (hnl.plain r.keeps) hin2 hid hσ f hf cs rfl hcn r.us
  have hm : markedIn cs = markedIn cards := by rw [hnl.marked, hl.marked]
  have hun : ∀ u ∈ us, ∀ d ∈ u, ∃ c ∈ cards, ∃ g, d = { c with geom := g } ∧ Clean (named surfs) σ cell g c.name := by
    intro u hu d hd
    obtain ⟨i, hi, rfl⟩ := List.mem_iff_getElem.1 hu
    obtain ⟨x, hx, r', g, h1, h2, -⟩ := (u3 i hi (by omega)).cells d hd
    rw [hnl.resolves hx] at h1
    subst h1
    obtain ⟨c, hc, g', rfl, -⟩ := h.card hs.names hx
    have hdn : d.name = c.name := by rw [h2]; rfl
    obtain ⟨g2, k1, k2⟩ := u4 _ hu d hd (by rw [hnl.marked])
    rw [clean_ren hin' k2] at k1
    have hgg : d.geom = g := by rw [h2]
    refine ⟨c, hc, g, h2, ?_⟩
    rw [← hgg, k1, ← hdn]
    exact k2
  have hus : ∀ u ∈ us, NoLike u := by
    intro u hu d hd
    obtain ⟨c, hc, g, rfl, -⟩ := hun u hu d hd
    exact hl c hc
  have e2 := subst_noLike order us (byId surfs) hus
  obtain ⟨us', S', r1, -, -, r4, r5⟩ := subst_spec hs' (hnl.plain r.keeps) hin2 ho r.us us (byId surfs) (dense_byId hid) (.refl _) u2 u3
  rw [e2] at r1
  cases r1
  refine ⟨us, byId surfs, writeBack cs us, ?_, ?_, u2, fun i hi hi' => h.right hs hl (r5 i hi hi')⟩
  · unfold readAgain
    rw [again_noCad, ← hm, u1]
    have e2' : substituteAll order us (surfs.map fun s => (s.id, s.pos)) = .ok (us, byId surfs) := e2
    simp only [bind, Except.bind, e2']
    cases hk : r.keep with
    | none => rw [hk] at hr; cases hr
    | some k => rfl
  · refine writeBack_inv hs.names _ _ h ?_
    intro d hd
    obtain ⟨u, hu, hd⟩ := List.mem_flatten.1 hd
    exact hun u hu d hd

end
end Geouned.Rev
