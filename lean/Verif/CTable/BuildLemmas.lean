import Verif.CTable.BuildSpec
import Verif.CTable.Props
import Mathlib.Tactic.SplitIfs
import Mathlib.Tactic.Set
/-! # Lemmas for C129 -/
namespace Geouned

variable {P Q : Type}

/-- all entries of the table -/
def CTable.Ent (t : CTable) (R : Nat → Nat → CTVal → Prop) : Prop := ∀ a b e, t.get a b = some e → R a b e

theorem add_get (t : CTable) (k1 k2 : Nat) (e : CTVal) (a b : Nat) : (t.addElement k1 k2 e).get a b = if a = k1 ∧ b = k2 then some e else t.get a b := by
  unfold CTable.addElement
  split <;> rfl

theorem add_keys (t : CTable) (k1 k2 : Nat) (e : CTVal) : (t.addElement k1 k2 e).keys = if k1 ∈ t.keys then t.keys else t.keys ++ [k1] := by
  unfold CTable.addElement
  split <;> rfl

theorem add_ent {t : CTable} {R : Nat → Nat → CTVal → Prop} (h : t.Ent R) {k1 k2 : Nat} {e : CTVal} (he : R k1 k2 e) : (t.addElement k1 k2 e).Ent R := by
  intro a b e' h'
  rw [add_get] at h'
  split_ifs at h' with hc
  · obtain ⟨rfl, rfl⟩ := hc; cases h'; exact he
  · exact h a b e' h'

theorem add_some {t : CTable} {k1 k2 a b : Nat} {e : CTVal} (h : (t.get a b).isSome) : ((t.addElement k1 k2 e).get a b).isSome := by
  rw [add_get]; split <;> simp [h]

/-- what the pair loop does to the entries -/
theorem pairLoop_ent (K : CutKernel P Q) {R : Nat → Nat → CTVal → Prop} {s1 : Nat} {A B : List P} : ∀ (ss : List Nat) (t t' : CTable) (pos neg pos' neg' : Option (Bool × Bool)),
    (∀ s2 ∈ ss, ∀ pos neg e p n, pairEntry (A.map (K.splitPiece s2)) (B.map (K.splitPiece s2)) pos neg = .ok (e, p, n) → R s1 s2 e) → t.Ent R → s1 ∈ t.keys →
    K.pairLoop s1 A B ss t pos neg = .ok (t', pos', neg') →
    t'.Ent R ∧ t'.keys = t.keys ∧ (∀ a b, (t.get a b).isSome → (t'.get a b).isSome) ∧ ∀ s2 ∈ ss, (t'.get s1 s2).isSome := by
  intro ss
  induction ss with
  | nil => intro t t' pos neg pos' neg' _ ht _ h; cases h; exact ⟨ht, rfl, fun _ _ h => h, by simp⟩
  | cons s2 ss ih =>
    intro t t' pos neg pos' neg' hR ht hk h
    simp only [CutKernel.pairLoop] at h
    split at h
    · cases h
    · next e p n he =>
      have hk' : (t.addElement s1 s2 e).keys = t.keys := by rw [add_keys, if_pos hk]
      obtain ⟨h1, h2, h3, h4⟩ := ih _ _ _ _ _ _ (fun s hs => hR s (List.mem_cons_of_mem _ hs)) (add_ent ht (hR s2 (List.mem_cons_self ..) _ _ _ _ _ he)) (hk' ▸ hk) h
      refine ⟨h1, h2.trans hk', fun a b hab => h3 a b (add_some hab), fun s hs => ?_⟩
      rcases List.mem_cons.1 hs with rfl | hs
      · exact h3 _ _ (by rw [add_get]; simp)
      · exact h4 s hs

theorem tableLoop_ent (K : CutKernel P Q) (diag : Bool) {R : Nat → Nat → CTVal → Prop} : ∀ (ss : List Nat) (t t' : CTable) (pos neg : Option (Bool × Bool)),
    ss.Nodup → (∀ s ∈ ss, s ∉ t.keys) →
    (∀ s ∈ ss, R s s (.diag (K.splitBox s).1)) →
    (∀ s1 s2 A B, [s1, s2].Sublist ss → (K.splitBox s1).2 = some (A, B) →
      ∀ pos neg e p n, pairEntry (A.map (K.splitPiece s2)) (B.map (K.splitPiece s2)) pos neg = .ok (e, p, n) → R s1 s2 e) →
    t.Ent R → K.tableLoop diag ss t pos neg = .ok t' →
    t'.Ent R ∧ t'.keys = t.keys ++ ss ∧ (∀ a b, (t.get a b).isSome → (t'.get a b).isSome) ∧ (∀ s ∈ ss, (t'.get s s).isSome) ∧
      (diag = false → ∀ s1 s2, [s1, s2].Sublist ss → (K.splitBox s1).2.isSome → (t'.get s1 s2).isSome) := by
  intro ss
  induction ss with
  | nil => intro t t' pos neg _ _ _ _ ht h; cases h; exact ⟨ht, by simp, fun _ _ h => h, by simp, by simp⟩
  | cons s1 ss ih =>
    intro t t' pos neg hnd hnk hd hp ht h
    obtain ⟨hns, hnd'⟩ := List.nodup_cons.1 hnd
    simp only [CutKernel.tableLoop] at h
    set t1 := t.addElement s1 s1 (.diag (K.splitBox s1).1) with ht1
    have hk1 : t1.keys = t.keys ++ [s1] := by rw [ht1, add_keys, if_neg (hnk s1 (List.mem_cons_self ..))]
    have he1 : t1.Ent R := add_ent ht (hd s1 (List.mem_cons_self ..))
    have hg1 : (t1.get s1 s1).isSome := by rw [ht1, add_get]; simp
    have hm1 : ∀ a b, (t.get a b).isSome → (t1.get a b).isSome := fun a b hab => add_some hab
    have fin : ∀ t2 : CTable, ∀ pos neg, t2.Ent R → t2.keys = t1.keys → (∀ a b, (t1.get a b).isSome → (t2.get a b).isSome) →
        ((diag = false → (K.splitBox s1).2.isSome → ∀ s2 ∈ ss, (t2.get s1 s2).isSome)) → K.tableLoop diag ss t2 pos neg = .ok t' →
        t'.Ent R ∧ t'.keys = t.keys ++ s1 :: ss ∧ (∀ a b, (t.get a b).isSome → (t'.get a b).isSome) ∧ (∀ s ∈ s1 :: ss, (t'.get s s).isSome) ∧
          (diag = false → ∀ a b, [a, b].Sublist (s1 :: ss) → (K.splitBox a).2.isSome → (t'.get a b).isSome) := by
      intro t2 pos neg he2 hk2 hm2 hp2 h2
      obtain ⟨i1, i2, i3, i4, i5⟩ := ih t2 t' pos neg hnd' (fun s hs => by
          rw [hk2, hk1]; simp only [List.mem_append, List.mem_singleton, not_or]
          exact ⟨hnk s (List.mem_cons_of_mem _ hs), fun e => hns (e ▸ hs)⟩)
        (fun s hs => hd s (List.mem_cons_of_mem _ hs)) (fun a b A B hab => hp a b A B (hab.cons _)) he2 h2
      refine ⟨i1, by rw [i2, hk2, hk1]; simp, fun a b hab => i3 a b (hm2 a b (hm1 a b hab)), fun s hs => ?_, fun hdg a b hab ha => ?_⟩
      · rcases List.mem_cons.1 hs with rfl | hs
        · exact i3 _ _ (hm2 _ _ hg1)
        · exact i4 s hs
      · cases hab with
        | cons _ hab => exact i5 hdg a b hab ha
        | cons_cons _ hab => exact i3 _ _ (hp2 hdg ha b (List.singleton_sublist.1 hab))
    cases diag with
    | true =>
      simp only [if_true] at h
      exact fin t1 pos neg he1 rfl (fun _ _ h => h) (by simp) h
    | false =>
      simp only [Bool.false_eq_true, if_false] at h
      split at h
      · next hn => exact fin t1 pos neg he1 rfl (fun _ _ h => h) (by simp [hn]) h
      · next A B hAB =>
        split at h
        · cases h
        · next t2 pos' neg' h2 =>
          obtain ⟨j1, j2, j3, j4⟩ := pairLoop_ent K ss t1 t2 pos neg pos' neg'
            (fun s2 hs2 => hp s1 s2 A B (List.Sublist.cons_cons _ (List.singleton_sublist.2 hs2)) hAB) he1 (by rw [hk1]; simp) h2
          exact fin t2 pos' neg' j1 j2 j3 (fun _ _ => j4) h

/-! ### filling keeps what is closed under transposition and combination -/

theorem fillRow_miss {k1 : Nat} : ∀ (ks : List Nat) (t t' : CTable) (m m' : List (Nat × Nat)), k1 ∉ ks → fillRow k1 ks (t, m) = .ok (t', m') →
    ∀ p ∈ m', p ∈ m ∨ (p.1 = k1 ∧ p.2 ∈ ks ∧ t.get p.1 p.2 = none) := by
  intro ks
  induction ks with
  | nil => intro t t' m m' _ h; simp only [fillRow, Except.ok.injEq, Prod.mk.injEq] at h; obtain ⟨-, rfl⟩ := h; exact fun p hp => .inl hp
  | cons k2 ks ih =>
    intro t t' m m' hk h p hp
    simp only [List.mem_cons, not_or] at hk
    simp only [fillRow] at h
    cases hg : t.get k1 k2 with
    | none =>
      simp only [hg] at h
      rcases ih _ _ _ _ hk.2 h p hp with h1 | ⟨h1, h2, h3⟩
      · rcases List.mem_append.1 h1 with h1 | h1
        · exact .inl h1
        · rw [List.mem_singleton] at h1; subst h1; exact .inr ⟨rfl, List.mem_cons_self .., hg⟩
      · exact .inr ⟨h1, List.mem_cons_of_mem _ h2, h3⟩
    | some e =>
      simp only [hg, bind_ok] at h
      obtain ⟨e', he, h⟩ := h
      rcases ih _ _ _ _ hk.2 h p hp with h1 | ⟨h1, h2, h3⟩
      · exact .inl h1
      · refine .inr ⟨h1, List.mem_cons_of_mem _ h2, ?_⟩
        simp only [CTable.set] at h3
        rw [if_neg (by rintro ⟨e1, -⟩; exact hk.1 (h1.symm.trans e1))] at h3
        exact h3

theorem fillRows_miss : ∀ (ks : List Nat) (t t' : CTable) (m m' : List (Nat × Nat)), ks.Nodup → fillRows ks (t, m) = .ok (t', m') →
    ∀ p ∈ m', p ∈ m ∨ ([p.1, p.2].Sublist ks ∧ t.get p.1 p.2 = none) := by
  intro ks
  induction ks with
  | nil => intro t t' m m' _ h; simp only [fillRows, Except.ok.injEq, Prod.mk.injEq] at h; obtain ⟨-, rfl⟩ := h; exact fun p hp => .inl hp
  | cons k1 ks ih =>
    intro t t' m m' hk h p hp
    obtain ⟨hk1, hk2⟩ := List.nodup_cons.1 hk
    simp only [fillRows, bind_ok] at h
    obtain ⟨⟨t1, m1⟩, h1, h⟩ := h
    rcases ih _ _ _ _ hk2 h p hp with h2 | ⟨h2, h3⟩
    · rcases fillRow_miss ks t t1 m m1 hk1 h1 p h2 with h2 | ⟨e1, e2, e3⟩
      · exact .inl h2
      · refine .inr ⟨?_, e3⟩
        rw [e1]
        exact List.Sublist.cons_cons _ (List.singleton_sublist.2 e2)
    · refine .inr ⟨h2.cons _, ?_⟩
      have := (fillRow_mono ks t t1 m m1 h1).1 p.1 p.2
      rw [h3] at this
      cases hg : t.get p.1 p.2 with
      | none => rfl
      | some e => rw [hg] at this; simp at this

theorem set_ent {t : CTable} {R : Nat → Nat → CTVal → Prop} (h : t.Ent R) {k1 k2 : Nat} {e : CTVal} (he : R k1 k2 e) : (t.set k1 k2 e).Ent R := by
  intro a b e' h'
  simp only [CTable.set] at h'
  split at h'
  · next hc => obtain ⟨rfl, rfl⟩ := hc; cases h'; exact he
  · exact h a b e' h'

theorem fillRow_ent {R : Nat → Nat → CTVal → Prop} (hT : ∀ a b e e', a ≠ b → R a b e → e.transpose = .ok e' → R b a e') {k1 : Nat} :
    ∀ (ks : List Nat) (t t' : CTable) (m m' : List (Nat × Nat)), k1 ∉ ks → t.Ent R → fillRow k1 ks (t, m) = .ok (t', m') → t'.Ent R := by
  intro ks
  induction ks with
  | nil => intro t t' m m' _ hs h; simp [fillRow] at h; rw [← h.1]; exact hs
  | cons k2 ks ih =>
    intro t t' m m' hk hs h
    simp only [List.mem_cons, not_or] at hk
    simp only [fillRow] at h
    cases hg : t.get k1 k2 with
    | none => simp only [hg] at h; exact ih _ _ _ _ hk.2 hs h
    | some e =>
      simp only [hg, bind_ok] at h
      obtain ⟨e', he, h⟩ := h
      exact ih _ _ _ _ hk.2 (set_ent hs (hT _ _ _ _ hk.1 (hs k1 k2 e hg) he)) h

theorem fillRows_ent {R : Nat → Nat → CTVal → Prop} (hT : ∀ a b e e', a ≠ b → R a b e → e.transpose = .ok e' → R b a e') :
    ∀ (ks : List Nat) (t t' : CTable) (m m' : List (Nat × Nat)), ks.Nodup → t.Ent R → fillRows ks (t, m) = .ok (t', m') → t'.Ent R := by
  intro ks
  induction ks with
  | nil => intro t t' m m' _ hs h; simp [fillRows] at h; rw [← h.1]; exact hs
  | cons k1 ks ih =>
    intro t t' m m' hk hs h
    obtain ⟨hk1, hk2⟩ := List.nodup_cons.1 hk
    simp only [fillRows, bind_ok] at h
    obtain ⟨⟨t1, m1⟩, h1, h⟩ := h
    exact ih _ _ _ _ hk2 (fillRow_ent hT ks _ _ _ _ hk1 hs h1) h

theorem fillMissing_ent {R : Nat → Nat → CTVal → Prop} (hT : ∀ a b e e', a ≠ b → R a b e → e.transpose = .ok e' → R b a e') :
    ∀ (ms : List (Nat × Nat)) (t t' : CTable), (∀ p ∈ ms, p.1 ≠ p.2) → (∀ p ∈ ms, ∀ d1 d2 e, R p.1 p.1 d1 → R p.2 p.2 d2 → combineDiag d1 d2 = .ok e → R p.1 p.2 e) →
      t.Ent R → fillMissing ms t = .ok t' → t'.Ent R := by
  intro ms
  induction ms with
  | nil => intro t t' _ _ hs h; simp [fillMissing] at h; rw [← h]; exact hs
  | cons p ms ih =>
    obtain ⟨k1, k2⟩ := p
    intro t t' hne hC hs h
    simp only [fillMissing, bind_ok] at h
    obtain ⟨d1, h1, d2, h2, new, hn, new', hn', h⟩ := h
    have ha : R k1 k2 new := hC (k1, k2) (List.mem_cons_self ..) _ _ _ (hs _ _ _ (at_ok h1)) (hs _ _ _ (at_ok h2)) hn
    exact ih _ _ (fun p hp => hne p (List.mem_cons_of_mem _ hp)) (fun p hp => hC p (List.mem_cons_of_mem _ hp)) (set_ent (set_ent hs ha) (hT _ _ _ _ (hne (k1, k2) (List.mem_cons_self ..)) ha hn')) h

/-- what holds of the entries of the table that `build` makes -/
theorem build_ent (K : CutKernel P Q) (diag : Bool) {R : Nat → Nat → CTVal → Prop} {surfs : List Nat} (hnd : surfs.Nodup)
    (hd : ∀ s ∈ surfs, R s s (.diag (K.splitBox s).1))
    (hp : ∀ s1 s2 A B, [s1, s2].Sublist surfs → (K.splitBox s1).2 = some (A, B) →
      ∀ pos neg e p n, pairEntry (A.map (K.splitPiece s2)) (B.map (K.splitPiece s2)) pos neg = .ok (e, p, n) → R s1 s2 e)
    (hT : ∀ a b e e', a ≠ b → R a b e → e.transpose = .ok e' → R b a e')
    (hC : ∀ a b d1 d2 e, [a, b].Sublist surfs → (K.splitBox a).2 = none → R a a d1 → R b b d2 → combineDiag d1 d2 = .ok e → R a b e)
    {t : CTable} (h : K.build diag surfs = .ok t) : t.Ent R ∧ t.keys = surfs := by
  rw [CutKernel.build] at h
  by_cases h0 : surfs = []
  · rw [if_pos h0] at h; cases h
  rw [if_neg h0] at h
  split at h
  · cases h
  · next t0 ht0 =>
    obtain ⟨i1, i2, -, -, i5⟩ := tableLoop_ent K diag surfs _ t0 none none hnd (by simp) hd hp (fun a b e h => by cases h) ht0
    cases diag with
    | true => simp only [if_true, Except.ok.injEq] at h; subst h; exact ⟨i1, by simpa using i2⟩
    | false =>
      simp only [Bool.false_eq_true, if_false] at h
      have hkeys := fill_keys h
      simp only [CTable.fill, bind_ok] at h
      obtain ⟨⟨t1, m⟩, h1, h⟩ := h
      simp only [List.nil_append] at i2
      rw [i2] at h1
      have hneq : ∀ p ∈ m, p.1 ≠ p.2 := fun p hp' => by
        rcases fillRows_miss _ _ _ _ _ hnd h1 p hp' with h2 | ⟨h2, -⟩
        · simp at h2
        · have := h2.nodup hnd
          simpa using this
      refine ⟨fillMissing_ent hT m t1 t hneq (fun p hp' d1 d2 e r1 r2 hc => ?_) (fillRows_ent hT _ _ _ _ _ hnd i1 h1) h, hkeys.trans i2⟩
      rcases fillRows_miss _ _ _ _ _ hnd h1 p hp' with h2 | ⟨h2, h3⟩
      · simp at h2
      · refine hC p.1 p.2 d1 d2 e h2 ?_ r1 r2 hc
        cases hs : (K.splitBox p.1).2 with
        | none => rfl
        | some x =>
          have := i5 rfl p.1 p.2 h2 (by simp [hs])
          rw [h3] at this; simp at this

/-- the making returns, when every surface that cuts the box leaves pieces on both sides -/
theorem pairLoop_returns (K : CutKernel P Q) {s1 : Nat} {A B : List P} (hA : A ≠ []) (hB : B ≠ []) : ∀ (ss : List Nat) (t : CTable) (pos neg : Option (Bool × Bool)),
    ∃ r, K.pairLoop s1 A B ss t pos neg = .ok r := by
  obtain ⟨x, A, rfl⟩ := List.exists_cons_of_ne_nil hA
  obtain ⟨y, B, rfl⟩ := List.exists_cons_of_ne_nil hB
  intro ss
  induction ss with
  | nil => intro t pos neg; exact ⟨_, rfl⟩
  | cons s2 ss ih =>
    intro t pos neg
    obtain ⟨⟨e, p, n⟩, hr⟩ := C45_pair_entry_returns (K.splitPiece s2 x) (A.map (K.splitPiece s2)) (K.splitPiece s2 y) (B.map (K.splitPiece s2)) pos neg
    simp only [CutKernel.pairLoop, List.map_cons, hr]
    exact ih _ _ _

theorem tableLoop_returns (K : CutKernel P Q) (diag : Bool) : ∀ (ss : List Nat) (t : CTable) (pos neg : Option (Bool × Bool)),
    (∀ s ∈ ss, ∀ A B, (K.splitBox s).2 = some (A, B) → A ≠ [] ∧ B ≠ []) → ∃ t', K.tableLoop diag ss t pos neg = .ok t' := by
  intro ss
  induction ss with
  | nil => intro t pos neg _; exact ⟨_, rfl⟩
  | cons s1 ss ih =>
    intro t pos neg h
    simp only [CutKernel.tableLoop]
    have ih' := fun t pos neg => ih t pos neg (fun s hs => h s (List.mem_cons_of_mem _ hs))
    cases diag with
    | true => simp only [if_true]; exact ih' _ _ _
    | false =>
      simp only [Bool.false_eq_true, if_false]
      split
      · exact ih' _ _ _
      · next A B hAB =>
        obtain ⟨h1, h2⟩ := h s1 (List.mem_cons_self ..) A B hAB
        obtain ⟨⟨t', p', n'⟩, hr⟩ := pairLoop_returns K (s1 := s1) h1 h2 ss (t.addElement s1 s1 (.diag (K.splitBox s1).1)) pos neg
        rw [hr]
        exact ih' _ _ _

theorem splitBox_vals (K : CutKernel P Q) (s : Nat) : (K.splitBox s).1 = -1 ∨ (K.splitBox s).1 = 0 ∨ (K.splitBox s).1 = 1 := by
  unfold CutKernel.splitBox CutKernel.sign
  split_ifs <;> simp

theorem build_shape (K : CutKernel P Q) (diag : Bool) {surfs : List Nat} (hne : surfs ≠ []) (hnd : surfs.Nodup)
    (hb : ∀ s ∈ surfs, ∀ A B, (K.splitBox s).2 = some (A, B) → A ≠ [] ∧ B ≠ []) :
    ∃ t0 t, K.tableLoop diag surfs ⟨[], fun _ _ => none, diag⟩ none none = .ok t0 ∧ t0.Shape ∧ t0.keys = surfs ∧ K.build diag surfs = .ok t ∧ (diag = true ∧ t = t0 ∨ diag = false ∧ t0.fill = .ok t) := by
  obtain ⟨t0, h0⟩ := tableLoop_returns K diag surfs ⟨[], fun _ _ => none, diag⟩ none none hb
  obtain ⟨i1, i2, -, i4, -⟩ := tableLoop_ent K diag
    (R := fun a b e => (a = b → ∃ d : Int, e = .diag d ∧ (d = -1 ∨ d = 0 ∨ d = 1)) ∧ (a ≠ b → ∃ c1 c2 c3 c4, e = .pair c1 c2 c3 c4)) surfs _ t0 none none hnd (by simp)
    (fun s _ => ⟨fun _ => ⟨_, rfl, splitBox_vals K s⟩, fun h => absurd rfl h⟩)
    (fun s1 s2 A B hs _ pos neg e p n he => by
      have hn : s1 ≠ s2 := by simpa using hs.nodup hnd
      refine ⟨fun h => absurd h hn, fun _ => ?_⟩
      simp only [pairEntry] at he
      split at he
      · cases he; exact ⟨_, _, _, _, rfl⟩
      · cases he)
    (fun a b e h => by cases h) h0
  simp only [List.nil_append] at i2
  have hs : t0.Shape := by
    constructor
    · intro k hk
      rw [i2] at hk
      obtain ⟨e, he⟩ := Option.isSome_iff_exists.1 (i4 k hk)
      obtain ⟨d, rfl, hd⟩ := (i1 k k e he).1 rfl
      exact ⟨d, he, hd⟩
    · intro a b e hab he
      exact (i1 a b e he).2 hab
  cases diag with
  | true => exact ⟨t0, t0, h0, hs, i2, by rw [CutKernel.build, if_neg hne, h0]; rfl, .inl ⟨rfl, rfl⟩⟩
  | false =>
    obtain ⟨t, ht, -⟩ := fill_total hs (i2 ▸ hnd)
    exact ⟨t0, t, h0, hs, i2, by rw [CutKernel.build, if_neg hne, h0]; simpa using ht, .inr ⟨rfl, ht⟩⟩

end Geouned
