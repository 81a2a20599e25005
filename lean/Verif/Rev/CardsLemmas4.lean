import Verif.Rev.CardsLemmas3
/-!
# C68: the stages for one universe
-/
namespace Geouned.Rev
open Geouned.Text

section
variable {P : Type} {σ : P → Side} {cell : P → Nat → Bool} {cards : List (DCard P)} {keep : Nat → Bool} {ρ : Nat → Nat} {surfs : List (Surf P)}

/-! ## `processSurfaces` -/

/-- the names of the surfaces -/
def named (surfs : List (Surf P)) (n : Nat) : Prop := n ∈ surfs.map (·.name)

/-- the dictionary `newSurfaces` -/
def byId (surfs : List (Surf P)) : SDict P := surfs.map fun s => (s.id, s.pos)

def idf (surfs : List (Surf P)) (n : Nat) : Nat :=
  match idOf surfs n with
  | .ok k => k
  | .error _ => 0

theorem get_byId (hid : surfs.map (·.id) = List.range' 1 surfs.length) {s : Surf P} (hs : s ∈ surfs) : (byId surfs).get s.id = some s.pos := by
  have hnd : (surfs.map (·.id)).Nodup := by rw [hid]; exact List.nodup_range'
  clear hid
  unfold SDict.get byId
  induction surfs with
  | nil => cases hs
  | cons x l ih =>
    rw [List.map_cons, List.nodup_cons] at hnd
    rw [List.map_cons, List.find?_cons]
    rcases List.mem_cons.1 hs with rfl | hs
    · simp
    · have hne : ¬ x.id = s.id := fun e => hnd.1 (List.mem_map.2 ⟨s, hs, e.symm⟩)
      simp only [hne, decide_false]
      exact ih hs hnd.2

theorem dense_byId (hid : surfs.map (·.id) = List.range' 1 surfs.length) : Dense (byId surfs) := by
  unfold Dense byId
  rw [List.map_map, List.length_map, ← hid]
  rfl

theorem idOf_spec (hid : surfs.map (·.id) = List.range' 1 surfs.length) (hσ : ∀ s ∈ surfs, ∀ p, σ p s.name = s.pos p) {n : Nat} (hn : named surfs n) :
    idOf surfs n = .ok (idf surfs n) ∧ idf surfs n ≠ 0 ∧ (∃ s, (byId surfs).get (idf surfs n) = some s) ∧ ∀ p, sideOf (byId surfs) p (idf surfs n) = σ p n := by
  cases e : surfs.find? (fun s => s.name = n) with
  | none =>
    rw [List.find?_eq_none] at e
    obtain ⟨s, h1, h2⟩ := List.mem_map.1 hn
    exact absurd h2 (by simpa using e s h1)
  | some s =>
    have hs := List.mem_of_find?_eq_some e
    have hsn : s.name = n := by simpa using List.find?_some e
    have e1 : idOf surfs n = .ok s.id := by unfold idOf; rw [e]
    have e2 : idf surfs n = s.id := by unfold idf; rw [e1]
    have e3 := get_byId hid hs
    rw [e2]
    refine ⟨e1, ?_, ⟨_, e3⟩, fun p => ?_⟩
    · have : s.id ∈ surfs.map (·.id) := List.mem_map.2 ⟨s, hs, rfl⟩
      rw [hid, List.mem_range'_1] at this
      omega
    · unfold sideOf
      rw [e3, ← hsn, hσ s hs]
      rfl

def renOf (surfs : List (Surf P)) (g : List HTok) : List HTok :=
  match renameLoop (idOf surfs) false g with
  | .ok r => r
  | .error _ => []

theorem process_spec : ∀ (cs : List (DCard P)), (∀ d ∈ cs, ∃ g, renameLoop (idOf surfs) false d.geom = .ok g) →
    processSurfaces surfs cs = .ok (cs.map fun d => { d with geom := renOf surfs d.geom })
  | [], _ => rfl
  | d :: cs, h => by
    obtain ⟨g, hg⟩ := h d (by simp)
    have ih := process_spec cs fun x hx => h x (by simp [hx])
    have e : renOf surfs d.geom = g := by unfold renOf; rw [hg]
    simp only [processSurfaces, hg, ih, bind, Except.bind, List.map_cons, e]

theorem textFor_ren (hid : surfs.map (·.id) = List.range' 1 surfs.length) (hσ : ∀ s ∈ surfs, ∀ p, σ p s.name = s.pos p) {geom : List HTok} {us : List Tok}
    (hk : ∀ n, Tok.num n ∈ us → named surfs n.natAbs) (hm : ∀ q v, HMeans (σ q) (cell q) geom v → Means (σ q) us v) :
    TextFor (byId surfs) σ cell geom (renOf surfs (us.map emb)) := by
  have e := rename_emb (new := idOf surfs) (f := idf surfs) (us := us) fun n hn => (idOf_spec hid hσ (hk n hn)).1
  refine ⟨us.map (mapNum (idf surfs)), by unfold renOf; rw [e], ?_, ?_⟩
  · intro n hn
    obtain ⟨m, h1, h2⟩ := mem_mapNum hn
    have h3 := idOf_spec hid hσ (hk m h1)
    refine ⟨?_, by rw [h2]; exact h3.2.2.1⟩
    have := h3.2.1
    omega
  · intro q v hv
    refine means_map (hm q v hv) fun n hn => ?_
    have h3 := idOf_spec hid hσ (hk n hn)
    exact ⟨h3.2.1, h3.2.2.2 q⟩

/-! ## reading one universe -/

theorem resolves_root {c : DCard P} {r : Entries P} (h : Resolves cards c r) : c ∈ cards → ∃ c0 ∈ cards, c0.like = none ∧ r.geom = c0.geom := by
  induction h with
  | own h => exact fun hc => ⟨_, hc, h, rfl⟩
  | like _ h2 _ ih => exact fun _ => ih h2

theorem markedIn_eq (hn : (cards.map (·.name)).Nodup) {c : DCard P} (hc : c ∈ cards) : markedIn cards c.name = (c.like.isSome || c.trcl.isSome) := by
  unfold markedIn
  rw [cellAt_of_mem hn hc]

/-- the cells of a universe before `substituteLikeCell` -/
structure PreCells (cards : List (DCard P)) (σ : P → Side) (cell : P → Nat → Bool) (keep : Nat → Bool) (S : SDict P) (U : Nat) (cs : List (DCard P)) : Prop where
  order : (cs.map (·.name)).Sublist (cards.map (·.name))
  names : ∀ n, n ∈ cs.map (·.name) ↔ keep n = true ∧ ∃ c ∈ cards, c.name = n ∧ ∃ r, Resolves cards c r ∧ r.u.getD 0 = U
  cells : ∀ d ∈ cs, ∃ c ∈ cards, ∃ r g, Resolves cards c r ∧ d = { withE c r with geom := g } ∧ (c.like = none → TextFor S σ cell r.geom g)

theorem filter_names (cs : List (DCard P)) (q : Nat → Bool) : (cs.filter fun c => q c.name).map (·.name) = (cs.map (·.name)).filter q := by
  rw [List.filter_map]
  rfl

theorem readUniverse_spec [Inhabited P] (hs : SoundFile cards (named surfs) ρ) (hp : PlainFile cards keep) (hin : InDeck σ cards cell)
    (hid : surfs.map (·.id) = List.range' 1 surfs.length) (hσ : ∀ s ∈ surfs, ∀ p, σ p s.name = s.pos p) (f : Nat) (hf : ∀ n, ρ n < f)
    (cells : List (DCard P)) (hcn : cells.map (·.name) = cards.map (·.name))
    (hce : ∀ c ∈ cards, ∃ r, Resolves cards c r ∧ cellAt cells c.name = some (withE c r)) (U : Nat) :
    ∃ cs, readUniverse (markedIn cards) f keep surfs cells U = .ok cs ∧ PreCells cards σ cell keep (byId surfs) U cs ∧
      ∀ d ∈ cs, markedIn cards d.name = false → ∃ g, d.geom = renOf surfs g ∧ Clean (named surfs) σ cell g d.name := by
  have hnd := hs.names
  have hcnd : (cells.map (·.name)).Nodup := by rw [hcn]; exact hnd
  -- the cells and their cards
  have card : ∀ x ∈ cells, ∃ c ∈ cards, ∃ r, Resolves cards c r ∧ x = withE c r := by
    intro x hx
    have : x.name ∈ cards.map (·.name) := by rw [← hcn]; exact List.mem_map.2 ⟨x, hx, rfl⟩
    obtain ⟨c, hc, e⟩ := List.mem_map.1 this
    obtain ⟨r, h1, h2⟩ := hce c hc
    refine ⟨c, hc, r, h1, ?_⟩
    rw [e, cellAt_of_mem hcnd hx] at h2
    exact Option.some.inj h2
  have own : ∀ {c r}, c ∈ cards → Resolves cards c r → c.like = none → r = ⟨c.mat, c.u, c.fill, c.tr, c.trcl, c.geom⟩ :=
    fun _ hr hl => resolves_unique hnd hr (.own hl)
  have plain : ∀ {c}, c ∈ cards → markedIn cards c.name = false → c.like = none ∧ c.trcl = none := by
    intro c hc hm
    rw [markedIn_eq hnd hc, Bool.or_eq_false_iff] at hm
    exact ⟨by simpa using hm.1, by simpa using hm.2⟩
  let univ := cells.filter fun c => c.u.getD 0 = U
  have hmu : ∀ x, x ∈ univ ↔ x ∈ cells ∧ x.u.getD 0 = U := by intro x; simp [univ]
  have hund : (univ.map (·.name)).Nodup := List.Sublist.nodup (List.filter_sublist.map _) hcnd
  have inU : ∀ {c r}, c ∈ cards → Resolves cards c r → r.u.getD 0 = U → withE c r ∈ univ := by
    intro c r hc hr hu
    obtain ⟨r', h1, h2⟩ := hce c hc
    cases resolves_unique hnd hr h1
    exact (hmu _).2 ⟨(cellAt_mem h2).1, hu⟩
  have hg : UGood (named surfs) σ cell (markedIn cards) ρ univ := by
    refine ⟨hund, ?_, ?_, ?_, ?_⟩
    all_goals
      intro x hx hm
      obtain ⟨c, hc, r, hr, rfl⟩ := card x ((hmu x).1 hx).1
      obtain ⟨hl, ht⟩ := plain hc hm
      have er := own hc hr hl
    · rw [er]; exact hs.spaced c hc hl
    · intro p
      have := hin c hc r hr p
      rw [er] at this
      rw [ht] at this
      rw [er]
      exact this
    · intro n hn
      rw [er] at hn
      exact hs.surfaces c hc hl n (surfNums_usesSurf hn)
    · intro m hmm
      rw [er] at hmm
      obtain ⟨h1, d, hd, rfl, h2⟩ := hs.hash c hc hl m hmm
      obtain ⟨r', hr'⟩ := hs.resolves d hd
      refine ⟨h1, List.mem_map.2 ⟨withE d r', inU hd hr' ?_, rfl⟩, ?_⟩
      · rw [← h2 r r' hr hr']
        exact ((hmu _).1 hx).2
      · obtain ⟨h3, h4⟩ := hp.hashPlain c hc hl d hd hmm
        rw [markedIn_eq hnd hd, h3, h4]
        rfl
  have hi : UInv (named surfs) σ cell (markedIn cards) univ [] univ := by
    refine ⟨rfl, fun x hx => ⟨x.geom, ?_, fun _ => rfl, fun _ => .inl rfl, fun _ h => by cases h⟩⟩
    rw [cellAt_of_mem hund hx]
  obtain ⟨u, e1, hu⟩ := unhash_spec hg f hf ((univ.map (·.name)).filter keep) [] univ hi fun n hn => (List.mem_filter.1 hn).1
  rw [List.nil_append] at hu
  have hunames := hu.names
  have huu : (u.map (·.name)).Nodup := by rw [hunames]; exact hund
  -- what each kept cell is
  have kept : ∀ d ∈ u.filter (fun c => keep c.name), ∃ c ∈ cards, ∃ r, Resolves cards c r ∧ r.u.getD 0 = U ∧ (∃ g, d = { withE c r with geom := g }) ∧
      (markedIn cards c.name = true → d.geom = r.geom) ∧ (markedIn cards c.name = false → Clean (named surfs) σ cell d.geom c.name) := by
    intro d hd
    obtain ⟨hd1, hd2⟩ := List.mem_filter.1 hd
    have hdn : d.name ∈ univ.map (·.name) := by rw [← hunames]; exact List.mem_map.2 ⟨d, hd1, rfl⟩
    obtain ⟨x, hx, hxd⟩ := List.mem_map.1 hdn
    obtain ⟨g, k1, k2, -, k4⟩ := hu.cells x hx
    have at' : cellAt u x.name = some d := by rw [hxd]; exact cellAt_of_mem huu hd1
    rw [at'] at k1
    have k1 := Option.some.inj k1
    obtain ⟨c, hc, r, hr, rfl⟩ := card x ((hmu x).1 hx).1
    have hgd : d.geom = g := congrArg DCard.geom k1
    refine ⟨c, hc, r, hr, ((hmu _).1 hx).2, ⟨g, k1⟩, fun hm => by rw [hgd]; exact k2 hm, fun hm => ?_⟩
    rw [hgd]
    refine k4 hm ?_
    exact List.mem_filter.2 ⟨List.mem_map.2 ⟨_, hx, rfl⟩, by rw [hxd]; exact hd2⟩
  have ren : ∀ d ∈ u.filter (fun c => keep c.name), ∃ g, renameLoop (idOf surfs) false d.geom = .ok g := by
    intro d hd
    obtain ⟨c, hc, r, hr, -, -, k2, k3⟩ := kept d hd
    refine rename_total fun m hm => ?_
    suffices named surfs m from ⟨_, (idOf_spec hid hσ this).1⟩
    cases hmk : markedIn cards c.name with
    | true =>
      rw [k2 hmk] at hm
      obtain ⟨c0, h1, h2, h3⟩ := resolves_root hr hc
      rw [h3] at hm
      exact hs.surfaces c0 h1 h2 m (surfNums_usesSurf hm)
    | false =>
      obtain ⟨us, e, -, hA, -⟩ := k3 hmk
      obtain ⟨m', q1, rfl⟩ := surfNums_sub hm
      exact hA m' q1
  refine ⟨(u.filter fun c => keep c.name).map fun d => { d with geom := renOf surfs d.geom }, ?_, ⟨?_, ?_, ?_⟩, ?_⟩
  · unfold readUniverse
    simp only [bind, Except.bind]
    rw [show unhashLoop (markedIn cards) f (List.filter keep (List.map (fun x => x.name) univ)) univ = .ok u from e1]
    exact process_spec _ ren
  · rw [List.map_map]
    show ((u.filter fun c => keep c.name).map (·.name)).Sublist _
    rw [filter_names, hunames, ← hcn]
    exact List.filter_sublist.trans (List.filter_sublist.map _)
  · intro n
    rw [List.map_map]
    show n ∈ (u.filter fun c => keep c.name).map (·.name) ↔ _
    rw [filter_names, hunames, List.mem_filter, and_comm]
    refine and_congr_right fun _ => ?_
    constructor
    · intro h
      obtain ⟨x, hx, rfl⟩ := List.mem_map.1 h
      obtain ⟨c, hc, r, hr, rfl⟩ := card x ((hmu x).1 hx).1
      exact ⟨c, hc, rfl, r, hr, ((hmu _).1 hx).2⟩
    · rintro ⟨c, hc, rfl, r, hr, hu⟩
      exact List.mem_map.2 ⟨withE c r, inU hc hr hu, rfl⟩
  · intro d' hd'
    obtain ⟨d, hd, rfl⟩ := List.mem_map.1 hd'
    obtain ⟨c, hc, r, hr, -, ⟨g, k1⟩, k2, k3⟩ := kept d hd
    refine ⟨c, hc, r, renOf surfs d.geom, hr, by rw [k1], fun hl => ?_⟩
    have er := own hc hr hl
    cases hmk : markedIn cards c.name with
    | true =>
      have ht : c.trcl ≠ none := by
        intro ht
        rw [markedIn_eq hnd hc, hl, ht] at hmk
        cases hmk
      have hnh := hp.noHash c hc hl ht
      have hgeo : r.geom = c.geom := by rw [er]
      obtain ⟨us, e, -⟩ := hmeans_noHash (by have := hin c hc r hr default; rw [hgeo] at this; exact this) hnh
      rw [k2 hmk, hgeo, e]
      refine textFor_ren hid hσ ?_ ?_
      · intro n hn
        refine hs.surfaces c hc hl _ ?_
        have hmem : HTok.num n ∈ hsolid c.geom := by rw [e, hsolid_emb]; exact num_emb.2 (List.mem_filter.2 ⟨hn, by simp⟩)
        obtain ⟨a, b, eab⟩ := List.append_of_mem hmem
        refine ⟨a, n, b, eab, rfl, ?_⟩
        rintro ⟨-, a', rfl⟩
        refine hnh ((List.mem_filter (p := fun x => decide (x ≠ HTok.blank))).1 (show HTok.hash ∈ hsolid c.geom by rw [eab]; simp)).1
      · intro q v hv
        obtain ⟨ws, e', hw⟩ := hmeans_noHash hv (by rw [← e]; exact hnh)
        cases map_emb_inj e'
        exact hw
    | false =>
      obtain ⟨hl, ht⟩ := plain hc hmk
      obtain ⟨us, e, -, hA, hmean⟩ := k3 hmk
      rw [e]
      refine textFor_ren hid hσ (fun n hn => hA n (by rw [e]; exact num_emb.2 hn)) ?_
      intro q v hv
      have h1 : HMeans (σ q) (cell q) r.geom (cell q c.name) := by
        have := hin c hc r hr q
        have h2 : r.trcl = none := by rw [er]; exact ht
        rwa [h2] at this
      have : v = cell q c.name := HMeans.unique (by rw [er]; exact hs.spaced c hc hl) hv h1
      rw [this]
      exact hmean q
  · intro d' hd'
    obtain ⟨d, hd, rfl⟩ := List.mem_map.1 hd'
    obtain ⟨c, hc, r, hr, -, ⟨g, k1⟩, k2, k3⟩ := kept d hd
    intro hm
    have hn : d.name = c.name := by rw [k1]; rfl
    refine ⟨d.geom, rfl, ?_⟩
    show Clean _ _ _ _ d.name
    rw [hn]
    exact k3 (by rw [← hn]; exact hm)

end
end Geouned.Rev
