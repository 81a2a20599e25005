import Verif.Rev.CardsLemmas4
/-!
# C68: `substituteLikeCell`
-/
namespace Geouned.Rev
open Geouned.Text

section
variable {P : Type} {σ : P → Side} {cell : P → Nat → Bool} {cards : List (DCard P)} {keep : Nat → Bool} {known : Nat → Prop} {ρ : Nat → Nat}

theorem two_orders {α : Type} {x y : α} : ∀ {L : List α}, L.Nodup → [x, y].Sublist L → [y, x].Sublist L → False
  | [], _, h, _ => by cases h
  | z :: L, hn, h1, h2 => by
    rw [List.nodup_cons] at hn
    rcases List.cons_sublist_cons'.1 h1 with k1 | ⟨e1, k1⟩
    · rcases List.cons_sublist_cons'.1 h2 with k2 | ⟨e2, k2⟩
      · exact two_orders hn.2 k1 k2
      · exact hn.1 (e2 ▸ k1.subset (List.mem_cons_of_mem _ (List.mem_cons_self ..)))
    · rcases List.cons_sublist_cons'.1 h2 with k2 | ⟨e2, k2⟩
      · exact hn.1 (e1 ▸ k2.subset (List.mem_cons_of_mem _ (List.mem_cons_self ..)))
      · exact hn.1 (e2 ▸ k1.subset (List.mem_cons_self ..))

/-- the cells while the texts of `LIKE` cells are copied -/
structure CInv (cards : List (DCard P)) (σ : P → Side) (cell : P → Nat → Bool) (S : SDict P) (nms done : List Nat) (cs : List (DCard P)) : Prop where
  names : cs.map (·.name) = nms
  cells : ∀ d ∈ cs, ∃ c ∈ cards, ∃ r g, Resolves cards c r ∧ d = { withE c r with geom := g } ∧ (c.like = none ∨ c.name ∈ done → TextFor S σ cell r.geom g)

theorem mem_setCell {cs : List (DCard P)} {x d : DCard P} (h : d ∈ setCell cs x) : d = x ∨ (d ∈ cs ∧ d.name ≠ x.name) := by
  obtain ⟨y, h1, h2⟩ := List.mem_map.1 h
  split at h2
  · exact .inl h2.symm
  · subst h2; exact .inr ⟨h1, by assumption⟩

theorem copy_spec (hs : SoundFile cards known ρ) (hp : PlainFile cards keep) {S : SDict P} {U : Nat} {cs0 : List (DCard P)}
    (h0 : PreCells cards σ cell keep S U cs0) :
    ∀ (ns done : List Nat) (cs : List (DCard P)), cs0.map (·.name) = done ++ ns → CInv cards σ cell S (cs0.map (·.name)) done cs →
      ∃ cs', copyLoop ns cs = .ok cs' ∧ CInv cards σ cell S (cs0.map (·.name)) (cs0.map (·.name)) cs'
  | [], done, cs, h1, hi => by
    rw [List.append_nil] at h1
    exact ⟨cs, rfl, by rw [h1] at hi ⊢; exact hi⟩
  | n :: ns, done, cs, h1, hi => by
    have hnd0 : (cs0.map (·.name)).Nodup := h0.order.nodup hs.names
    have hnd : (cs.map (·.name)).Nodup := by rw [hi.names]; exact hnd0
    have hn0 : n ∈ cs0.map (·.name) := by rw [h1]; simp
    have hn : n ∈ cs.map (·.name) := by rw [hi.names]; exact hn0
    obtain ⟨d, hd⟩ := cellAt_some hn
    obtain ⟨hdm, hdn⟩ := cellAt_mem hd
    obtain ⟨c, hc, r, g, hr, hdc, hg⟩ := hi.cells d hdm
    have hcn : c.name = n := by rw [← hdn, hdc]; rfl
    have hdl : d.like = c.like := by rw [hdc]; rfl
    cases hl : c.like with
    | none =>
      have := copy_spec hs hp h0 ns (done ++ [n]) cs (by simpa using h1) ⟨hi.names, fun e he => by
        obtain ⟨c', hc', r', g', hr', he', hg'⟩ := hi.cells e he
        refine ⟨c', hc', r', g', hr', he', ?_⟩
        rintro (h | h)
        · exact hg' (.inl h)
        · rcases List.mem_append.1 h with h | h
          · exact hg' (.inr h)
          · have h : c'.name = n := by simpa using h
            have : c' = c := by
              have a := cellAt_of_mem hs.names hc'
              have b := cellAt_of_mem hs.names hc
              rw [h, ← hcn, b] at a
              exact (Option.some.inj a).symm
            exact hg' (.inl (by rw [this]; exact hl))⟩
      unfold copyLoop
      rw [hd]
      dsimp only
      rw [hdl, hl]
      exact this
    | some b =>
      obtain ⟨pre, post, e⟩ := List.append_of_mem hc
      obtain ⟨x, hx, rfl, hor⟩ := hp.order pre c post e b hl
      obtain ⟨rx, hrx⟩ := hs.resolves x hx
      have hrg : r.geom = rx.geom := by rw [resolves_unique hs.names hr (.like hl hx hrx)]
      have hkn := (h0.names n).1 hn0
      obtain ⟨hk, c1, hc1, hc1n, r1, hr1, hu1⟩ := hkn
      have : c1 = c := by
        have a := cellAt_of_mem hs.names hc1
        have b := cellAt_of_mem hs.names hc
        rw [hc1n, ← hcn, b] at a
        exact (Option.some.inj a).symm
      subst this
      have hxn0 : x.name ∈ cs0.map (·.name) := (h0.names x.name).2 ⟨hp.kept c1 hc x hx hl (by rw [hcn]; exact hk), x, hx, rfl, rx, hrx, by
        rw [← hp.sameU c1 hc x hx hl r1 rx hr1 hrx]; exact hu1⟩
      obtain ⟨y, hy⟩ := cellAt_some (show x.name ∈ cs.map (·.name) by rw [hi.names]; exact hxn0)
      obtain ⟨hym, hyn⟩ := cellAt_mem hy
      obtain ⟨cx, hcx, ry, gy, hry, hyc, hgy⟩ := hi.cells y hym
      have : cx = x := by
        have h1 : cx.name = x.name := by rw [← hyn, hyc]; rfl
        have a := cellAt_of_mem hs.names hcx
        have b := cellAt_of_mem hs.names hx
        rw [h1, b] at a
        exact (Option.some.inj a).symm
      subst this
      cases resolves_unique hs.names hrx hry
      have hT : TextFor S σ cell rx.geom gy := by
        refine hgy ?_
        rcases hor with hor | hor
        · right
          rw [h1] at hxn0
          rcases List.mem_append.1 hxn0 with h | h
          · exact h
          · exfalso
            have e2 : cards.map (·.name) = pre.map (·.name) ++ n :: post.map (·.name) := by rw [e]; simp [hcn]
            have s1 : [cx.name, n].Sublist (cards.map (·.name)) := by
              rw [e2]
              exact (List.singleton_sublist.2 (List.mem_map.2 ⟨cx, hor, rfl⟩)).append (List.singleton_sublist.2 (by simp))
            rcases List.mem_cons.1 h with h | h
            · rw [h] at s1
              have := s1.nodup hs.names
              simp at this
            · have s2 : [n, cx.name].Sublist (cards.map (·.name)) := by
                refine List.Sublist.trans ?_ h0.order
                rw [h1]
                exact List.Sublist.trans (List.Sublist.cons_cons _ (List.singleton_sublist.2 h)) (List.sublist_append_right _ _)
              exact two_orders hs.names s1 s2
        · exact .inl hor
      have hgeo : y.geom = gy := by rw [hyc]
      have := copy_spec hs hp h0 ns (done ++ [n]) (setCell cs { d with geom := y.geom }) (by simpa using h1) ⟨(setCell_names _ _).trans hi.names, fun e he => by
        rcases mem_setCell he with rfl | ⟨he1, he2⟩
        · refine ⟨c1, hc, r, gy, hr, ?_, fun _ => by rw [hrg]; exact hT⟩
          rw [hgeo, hdc]
        · obtain ⟨c', hc', r', g', hr', he', hg'⟩ := hi.cells e he1
          refine ⟨c', hc', r', g', hr', he', ?_⟩
          rintro (h | h)
          · exact hg' (.inl h)
          · rcases List.mem_append.1 h with h | h
            · exact hg' (.inr h)
            · have h : c'.name = n := by simpa using h
              have h2 : e.name = c'.name := by rw [he']; rfl
              exact absurd (h2.trans (h.trans hdn.symm)) he2⟩
      unfold copyLoop
      rw [hd]
      dsimp only
      rw [hdl, hl] at *
      dsimp only
      rw [hy]
      exact this

/-! ## moved surfaces -/

theorem before_none (p : P) : before (none : Option (Motion P)) p = p := rfl

theorem isCell_ext {S S' : SDict P} (h : Ext S S') (h0 : ∀ n s, S.get n = some s → n ≠ 0) {c d : DCard P} (hc : IsCell cards cell S.get c d) :
    IsCell cards cell S'.get c d := by
  obtain ⟨us, e, hk, hm⟩ := hc.region
  refine ⟨hc.name, hc.mat, hc.u, hc.fill, hc.place, us, e, fun n hn => ?_, fun p => ?_⟩
  · obtain ⟨s, hs⟩ := hk n hn
    exact ⟨s, h _ _ hs⟩
  · refine means_ext h (fun n hn => ?_) (hm p)
    obtain ⟨s, hs⟩ := hk n hn
    have := h0 _ _ hs
    exact ⟨by omega, s, hs⟩

theorem dense_ne {S : SDict P} (h : Dense S) : ∀ n s, S.get n = some s → n ≠ 0 := by
  intro n s hs
  have := h.mem.1 (get_mem hs)
  omega

theorem trcl_spec (hs : SoundFile cards known ρ) (hp : PlainFile cards keep) (hin : InDeck σ cards cell) {order : List Nat → List Nat} (ho : ∀ l, (order l).Perm l) :
    ∀ (cs : List (DCard P)) (S : SDict P), Dense S →
      (∀ d ∈ cs, ∃ c ∈ cards, ∃ r g, Resolves cards c r ∧ d = { withE c r with geom := g } ∧ TextFor S σ cell r.geom g) →
      ∃ cs' S', trclLoop order cs S.length S = .ok (cs', S') ∧ Dense S' ∧ Ext S S' ∧ cs'.map (·.name) = cs.map (·.name) ∧
        ∀ d ∈ cs', ∃ c ∈ cards, IsCell cards cell S'.get c d
  | [], S, hd, _ => ⟨[], S, rfl, hd, .refl S, rfl, fun d h => by cases h⟩
  | d :: cs, S, hd, hc => by
    obtain ⟨c, hcm, r, g, hr, hdc, us, hg, hk, hm⟩ := hc d (by simp)
    have uniq : ∀ r', Resolves cards c r' → r = r' := fun r' h => resolves_unique hs.names hr h
    have hdt : d.trcl = r.trcl := by rw [hdc]; rfl
    have hdg : d.geom = us.map emb := by rw [hdc]; exact hg
    cases ht : r.trcl with
    | none =>
      obtain ⟨cs', S', h1, h2, h3, h4, h5⟩ := trcl_spec hs hp hin ho cs S hd fun x hx => hc x (by simp [hx])
      refine ⟨d :: cs', S', ?_, h2, h3, by simp [h4], ?_⟩
      · unfold trclLoop
        rw [hdt, ht]
        simp only [h1, bind, Except.bind]
      · intro x hx
        rcases List.mem_cons.1 hx with rfl | hx
        · refine ⟨c, hcm, isCell_ext h3 (dense_ne hd) ⟨by rw [hdc]; rfl, ?_, ?_, ?_, ?_, us, hdg, fun n hn => (hk n hn).2, ?_⟩⟩
          · intro r' h; rw [← uniq r' h, hdc]; rfl
          · intro r' h; rw [← uniq r' h, hdc]; rfl
          · intro r' h; rw [← uniq r' h, hdc]; rfl
          · intro r' h _
            rw [← uniq r' h]
            unfold Entries.place
            rw [ht, hdc]
            show r.tr = (r.tr <|> none)
            cases r.tr <;> rfl
          · intro p
            have := hin c hcm r hr p
            rw [ht] at this
            exact hm p _ this
        · exact h5 x hx
    | some t =>
      have hnum : ∀ n ∈ numbersOf order d.geom, ∃ s, S.get n = some s := by
        intro n hn
        obtain ⟨m, hm1, rfl⟩ := (mem_numbersOf ho).1 hn
        rw [hdg] at hm1
        exact (hk m (num_emb.1 hm1)).2
      obtain ⟨dd, S1, e1, e2, e3, -, e5⟩ := move_spec t (numbersOf order d.geom) [] S hd hnum (by simp) (numbersOf_nodup ho _)
      let ff : Nat → Nat := fun n => match renamed dd n with
        | .ok k => k
        | .error _ => 0
      have hff : ∀ n, Tok.num n ∈ us → ∃ s, renamed dd n.natAbs = .ok (ff n.natAbs) ∧ ff n.natAbs ≠ 0 ∧ S.get n.natAbs = some s ∧
          S1.get (ff n.natAbs) = some fun p => s (t.back p) := by
        intro n hn
        obtain ⟨k, s, q1, q2, q3, q4⟩ := e5 n.natAbs ((mem_numbersOf ho).2 ⟨n, by rw [hdg]; exact num_emb.2 hn, rfl⟩)
        have hk' : ff n.natAbs = k := by simp only [ff, q1]
        rw [hk']
        exact ⟨s, q1, q2, q3, q4⟩
      have er := rename_emb (new := renamed dd) (f := ff) (us := us) fun n hn => by
        obtain ⟨s, q1, -⟩ := hff n hn
        exact q1
      obtain ⟨cs', S', h1, h2, h3, h4, h5⟩ := trcl_spec hs hp hin ho cs S1 e2 fun x hx => by
        obtain ⟨c', a1, r', g', a2, a3, a4⟩ := hc x (by simp [hx])
        exact ⟨c', a1, r', g', a2, a3, a4.ext e3⟩
      refine ⟨{ d with geom := (us.map (mapNum ff)).map emb, trcl := none, tr := if orElse0 d.fill none = none then d.tr else some t } :: cs', S', ?_, h2,
        e3.trans h3, by simp [h4], ?_⟩
      · unfold trclLoop
        rw [hdt, ht]
        simp only [e1, bind, Except.bind]
        rw [hdg, er]
        simp only [h1]
      · intro x hx
        rcases List.mem_cons.1 hx with rfl | hx
        · refine ⟨c, hcm, isCell_ext h3 (dense_ne e2) ⟨by rw [hdc]; rfl, ?_, ?_, ?_, ?_, us.map (mapNum ff), rfl, ?_, ?_⟩⟩
          · intro r' h; rw [← uniq r' h, hdc]; rfl
          · intro r' h; rw [← uniq r' h, hdc]; rfl
          · intro r' h; rw [← uniq r' h, hdc]; rfl
          · rintro r' h ⟨n, hn⟩
            rw [← uniq r' h] at hn ⊢
            unfold Entries.place
            have hdf : d.fill = some (n + 1) := by rw [hdc]; exact hn
            show (if orElse0 d.fill none = none then d.tr else some t) = _
            rw [hdf, ht, hp.fillTr c hcm r hr (by rw [ht]; simp)]
            rfl
          · intro n hn
            obtain ⟨m, q1, q2⟩ := mem_mapNum hn
            obtain ⟨s, -, -, -, q3⟩ := hff m q1
            rw [q2]
            exact ⟨_, q3⟩
          · intro p
            have := hin c hcm r hr p
            rw [ht] at this
            refine means_map (hm (t.back p) _ this) fun n hn => ?_
            obtain ⟨s, -, q2, q3, q4⟩ := hff n hn
            refine ⟨q2, ?_⟩
            simp only [sideOf, q3, q4, Option.any_some]
        · exact h5 x hx

theorem subst_spec (hs : SoundFile cards known ρ) (hp : PlainFile cards keep) (hin : InDeck σ cards cell) {order : List Nat → List Nat} (ho : ∀ l, (order l).Perm l)
    {S0 : SDict P} : ∀ (Us : List Nat) (us : List (List (DCard P))) (S : SDict P), Dense S → Ext S0 S → us.length = Us.length →
      (∀ i (h : i < us.length) (h' : i < Us.length), PreCells cards σ cell keep S0 Us[i] us[i]) →
      ∃ us' S', substituteAll order us S = .ok (us', S') ∧ Dense S' ∧ Ext S S' ∧ us'.length = Us.length ∧
        ∀ i (h : i < us'.length) (h' : i < Us.length), RightCells cards cell keep S'.get Us[i] us'[i]
  | [], [], S, hd, _, _, _ => ⟨[], S, rfl, hd, .refl S, rfl, fun i h => by simp at h⟩
  | U :: Us, u :: us, S, hd, he, hl, hc => by
    have h0 := hc 0 (by simp) (by simp)
    simp only [List.getElem_cons_zero] at h0
    obtain ⟨cs1, c1, c2⟩ := copy_spec hs hp h0 (u.map (·.name)) [] u (by simp) ⟨rfl, fun d hd => by
      obtain ⟨c, a1, r, g, a2, a3, a4⟩ := h0.cells d hd
      exact ⟨c, a1, r, g, a2, a3, fun h => a4 (h.resolve_right (by simp))⟩⟩
    obtain ⟨cs2, S1, t1, t2, t3, t4, t5⟩ := trcl_spec hs hp hin ho cs1 S hd fun d hd => by
      obtain ⟨c, a1, r, g, a2, a3, a4⟩ := c2.cells d hd
      refine ⟨c, a1, r, g, a2, a3, (a4 (.inr ?_)).ext he⟩
      rw [← c2.names]
      exact List.mem_map.2 ⟨d, hd, by rw [a3]; rfl⟩
    obtain ⟨us', S', r1, r2, r3, r4, r5⟩ := subst_spec hs hp hin ho Us us S1 t2 (he.trans t3) (by simpa using hl) fun i h h' => by
      have := hc (i + 1) (by simpa using h) (by simpa using h')
      simpa using this
    refine ⟨cs2 :: us', S', ?_, r2, t3.trans r3, by simp [r4], ?_⟩
    · unfold substituteAll substituteLike
      simp only [c1, t1, r1, bind, Except.bind]
    · intro i h h'
      cases i with
      | zero =>
        simp only [List.getElem_cons_zero]
        have hnm : cs2.map (·.name) = u.map (·.name) := t4.trans c2.names
        refine ⟨by rw [hnm]; exact h0.order, fun n => by rw [hnm]; exact h0.names n, fun d hd => ?_⟩
        obtain ⟨c, a1, a2⟩ := t5 d hd
        exact ⟨c, a1, isCell_ext r3 (dense_ne t2) a2⟩
      | succ i =>
        have := r5 i (by simpa using h) (by simpa using h')
        simpa using this
  | [], _ :: _, _, _, _, h, _ => by simp at h
  | _ :: _, [], _, _, _, h, _ => by simp at h

theorem readUniverses_spec [Inhabited P] {surfs : List (Surf P)} (hs : SoundFile cards (named surfs) ρ) (hp : PlainFile cards keep) (hin : InDeck σ cards cell)
    (hid : surfs.map (·.id) = List.range' 1 surfs.length) (hσ : ∀ s ∈ surfs, ∀ p, σ p s.name = s.pos p) (f : Nat) (hf : ∀ n, ρ n < f)
    (cells : List (DCard P)) (hcn : cells.map (·.name) = cards.map (·.name))
    (hce : ∀ c ∈ cards, ∃ r, Resolves cards c r ∧ cellAt cells c.name = some (withE c r)) : ∀ Us : List Nat,
    ∃ us, readUniverses (markedIn cards) f keep surfs cells Us = .ok us ∧ us.length = Us.length ∧
      (∀ i (h : i < us.length) (h' : i < Us.length), PreCells cards σ cell keep (byId surfs) Us[i] us[i]) ∧
      ∀ u ∈ us, ∀ d ∈ u, markedIn cards d.name = false → ∃ g, d.geom = renOf surfs g ∧ Clean (named surfs) σ cell g d.name
  | [] => ⟨[], rfl, rfl, fun i h => by simp at h, fun u hu => by cases hu⟩
  | U :: Us => by
    obtain ⟨u, h1, h2, h2'⟩ := readUniverse_spec hs hp hin hid hσ f hf cells hcn hce U
    obtain ⟨us, r1, r2, r3, r4⟩ := readUniverses_spec hs hp hin hid hσ f hf cells hcn hce Us
    refine ⟨u :: us, ?_, by simp [r2], ?_, ?_⟩
    · unfold readUniverses
      simp only [h1, r1, bind, Except.bind]
    · intro i h h'
      cases i with
      | zero => simpa using h2
      | succ i => simpa using r3 i (by simpa using h) (by simpa using h')
    · intro v hv
      rcases List.mem_cons.1 hv with rfl | hv
      · exact h2'
      · exact r4 v hv

end
end Geouned.Rev
