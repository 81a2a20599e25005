import Verif.Load.Loop
/-!
# Lemmas: joining envelopes; solids are kept; no exception
-/
namespace Geouned.Load

variable {S : Type}

/-- the solids of the cells -/
def flat (l : List (Meta S)) : List S := l.flatMap (fun x => x.solids.getD [])

theorem flat_set {l : List (Meta S)} {i : Nat} {m m' : Meta S} (h : l[i]? = some m) (hs : m'.solids = m.solids) : flat (l.set i m') = flat l := by
  induction l generalizing i with
  | nil => rfl
  | cons x l ih =>
    cases i with
    | zero =>
      simp only [List.getElem?_cons_zero, Option.some.injEq] at h
      subst h
      simp [flat, hs]
    | succ i =>
      rw [List.set_cons_succ]
      have := ih (i := i) (by simpa using h)
      unfold flat at this ⊢
      rw [List.flatMap_cons, List.flatMap_cons, this]

theorem fuse_flat {l l' : List (Meta S)} {a b : Nat} (h : fuse l a b = .ok l') : flat l' = flat l := by
  unfold fuse at h
  split at h
  · split at h
    · cases h
    · next m hm =>
      cases h
      exact flat_set hm rfl
  · split at h
    · cases h
    · next m hm =>
      cases h
      have e : l = l.take a ++ ((l.take b).drop a ++ l.drop (max a b)) := by
        rcases Nat.le_total a b with hab | hab
        · rw [max_eq_right hab]
          conv_lhs => rw [← List.take_append_drop b l, ← List.take_append_drop a (l.take b), List.take_take, min_eq_left hab]
          rw [List.append_assoc]
        · rw [max_eq_left hab, show (l.take b).drop a = [] from List.drop_eq_nil_of_le (by rw [List.length_take]; omega), List.nil_append, List.take_append_drop]
      conv_rhs => rw [e]
      unfold flat
      simp only [List.flatMap_append, List.append_assoc, List.flatMap_cons, List.flatMap_nil, List.nil_append]
      congr 2
      have := optS_getD (((l.take b).drop a).flatMap (fun x => x.solids.getD []))
      unfold optS at this
      rw [this]

theorem setAll_solids {o : Opts} {f : Found} {cm : List Char} {i : Nat} {m m' : Meta S} (h : setAll o f cm i m = .ok m') : m'.solids = m.solids := by
  unfold setAll at h
  dsimp only at h
  cases hd : setDil f { setMat o f { m with comments := cm ++ Nat.toDigits 10 (i + 1) } with
      fill := f.fill.or (setMat o f { m with comments := cm ++ Nat.toDigits 10 (i + 1) }).fill,
      trans := f.trans.or (setMat o f { m with comments := cm ++ Nat.toDigits 10 (i + 1) }).trans } with
  | error x => rw [hd] at h; cases h
  | ok m3 =>
    rw [hd] at h
    dsimp only at h
    cases h
    have h1 : (setEncl f m3).solids = m3.solids := by
      unfold setEncl
      cases f.envel <;> cases f.encl <;> rfl
    have h2 : (setMat o f { m with comments := cm ++ Nat.toDigits 10 (i + 1) }).solids = m.solids := by
      unfold setMat setMaterial
      cases f.mat with
      | none => cases o.voidMat <;> rfl
      | some k =>
        dsimp only
        cases o.matFile k with
        | some v => rfl
        | none =>
          dsimp only
          split <;> rfl
    rw [h1, ← h2]
    unfold setDil at hd
    cases hdl : f.dil with
    | none =>
      rw [hdl] at hd
      dsimp only at hd
      cases hd
      rfl
    | some ab =>
      rw [hdl] at hd
      dsimp only at hd
      cases hv : decVal ab.1 ab.2 with
      | error x => rw [hv] at hd; cases hd
      | ok d =>
        rw [hv] at hd
        cases hd
        rfl

theorem attrLoop_flat {o : Opts} {f : Found} {cm : List Char} : ∀ (n i p : Nat) {l l' : List (Meta S)}, attrLoop o f cm n i p l = .ok l' → flat l' = flat l
  | 0, _, _, l, l', h => by cases h; rfl
  | n + 1, i, p, l, l', h => by
    rw [attrLoop] at h
    cases hp : l[p]? with
    | none => rw [hp] at h; cases h
    | some m =>
      rw [hp] at h
      dsimp only at h
      cases hs : setAll o f cm i m with
      | error x => rw [hs] at h; cases h
      | ok m' =>
        rw [hs] at h
        rw [attrLoop_flat n (i + 1) (p + 1) h]
        exact flat_set hp (setAll_solids hs)

theorem elemLoop_flat {o : Opts} : ∀ (es : List (Elem S)) (p : Nat) {l l' : List (Meta S)}, elemLoop o es p l = .ok l' → flat l' = flat l
  | [], _, l, l', h => by cases h; rfl
  | e :: es, p, l, l', h => by
    rw [elemLoop] at h
    by_cases he : e.solids = []
    · rw [if_pos he] at h
      exact elemLoop_flat es p h
    · rw [if_neg he] at h
      cases hf : fuseElem o (findAll o e) e.solids.length p l with
      | error x => rw [hf] at h; cases h
      | ok r =>
        rw [hf] at h
        dsimp only at h
        have hr : flat r.1 = flat l := by
          unfold fuseElem at hf
          split at hf
          · cases hu : fuse l p (p + e.solids.length) with
            | error x => rw [hu] at hf; cases hf
            | ok q =>
              rw [hu] at hf
              cases hf
              exact fuse_flat hu
          · cases hf
            rfl
        cases ha : attrLoop o (findAll o e) (elemComment o e) r.2 0 p r.1 with
        | error x => rw [ha] at h; cases h
        | ok l2 =>
          rw [ha] at h
          rw [elemLoop_flat es _ h, attrLoop_flat _ _ _ ha, hr]

theorem fuseRuns_flat : ∀ (rs : List (List Nat)) {l l' : List (Meta S)}, fuseRuns rs l = .ok l' → flat l' = flat l
  | [], l, l', h => by cases h; rfl
  | r :: rs, l, l', h => by
    rw [fuseRuns] at h
    cases h1 : r.head? with
    | none => rw [h1] at h; cases h
    | some a =>
      cases h2 : r.getLast? with
      | none => rw [h1, h2] at h; cases h
      | some b =>
        rw [h1, h2] at h
        dsimp only at h
        cases hu : fuse l a (b + 1) with
        | error x => rw [hu] at h; cases h
        | ok q =>
          rw [hu] at h
          rw [fuseRuns_flat rs h, fuse_flat hu]

/-- two cells that are alike but for the number -/
def Alike (m m' : Meta S) : Prop := m' = { m with id := m'.id }

theorem alike_refl (m : Meta S) : Alike m m := rfl

/-- envelopes with different numbers stay as they are -/
theorem runs_single : ∀ (l : List (Meta S)) (i : Nat) (old : Option Nat) (cur : List Nat),
    (old :: (l.filter (fun m => m.kind = .envelope)).map (·.enclId)).Nodup →
      ∃ ps : List Nat, envelopeRuns l i old cur = cur :: ps.map (fun k => [k]) ∧ ∀ k ∈ ps, i ≤ k ∧ k < i + l.length
  | [], i, old, cur, _ => ⟨[], rfl, by simp⟩
  | m :: l, i, old, cur, hn => by
    rw [envelopeRuns]
    by_cases hk : m.kind = .envelope
    · rw [if_neg (by simpa using hk)]
      rw [List.filter_cons, if_pos (by simpa using hk), List.map_cons] at hn
      have hne : m.enclId ≠ old := by
        intro h
        rw [List.nodup_cons, h] at hn
        exact hn.1 List.mem_cons_self
      rw [if_pos hne]
      obtain ⟨ps, h1, h2⟩ := runs_single l (i + 1) m.enclId [i] (List.nodup_cons.mp hn).2
      refine ⟨i :: ps, by rw [h1]; rfl, fun k hk' => ?_⟩
      rw [List.length_cons]
      rcases List.mem_cons.mp hk' with rfl | hk'
      · omega
      · have := h2 k hk'
        omega
    · rw [if_pos hk]
      rw [List.filter_cons, if_neg (by simpa using hk)] at hn
      obtain ⟨ps, h1, h2⟩ := runs_single l (i + 1) old cur hn
      refine ⟨ps, h1, fun k hk' => ?_⟩
      have := h2 k hk'
      rw [List.length_cons]
      omega

theorem forall2_set {l : List (Meta S)} {k : Nat} {m : Meta S} (h : l[k]? = some m) (id : Nat) : List.Forall₂ Alike l (l.set k { m with id := id }) := by
  induction l generalizing k with
  | nil => exact .nil
  | cons x l ih =>
    cases k with
    | zero =>
      simp only [List.getElem?_cons_zero, Option.some.injEq] at h
      subst h
      refine .cons rfl ?_
      exact List.forall₂_same.mpr (fun y _ => alike_refl y)
    | succ k => exact .cons rfl (ih (by simpa using h))

theorem alike_trans {a b c : Meta S} (h1 : Alike a b) (h2 : Alike b c) : Alike a c := by
  unfold Alike at *
  rw [h2, h1]

theorem forall2_trans {R : Meta S → Meta S → Prop} (hR : ∀ a b c, R a b → R b c → R a c) : ∀ {a b c : List (Meta S)}, List.Forall₂ R a b → List.Forall₂ R b c → List.Forall₂ R a c
  | _, _, _, .nil, .nil => .nil
  | _, _, _, .cons h1 t1, .cons h2 t2 => .cons (hR _ _ _ h1 h2) (forall2_trans hR t1 t2)

theorem set_same {α : Type} : ∀ {l : List α} {k : Nat} {x : α}, l[k]? = some x → l.set k x = l
  | [], _, _, _ => rfl
  | y :: l, 0, x, h => by
    simp only [List.getElem?_cons_zero, Option.some.injEq] at h
    rw [h]
    rfl
  | y :: l, k + 1, x, h => by rw [List.set_cons_succ, set_same (by simpa using h)]

theorem fuseRuns_single : ∀ (ps : List Nat) (l : List (Meta S)), (∀ k ∈ ps, k < l.length) →
    ∃ l', fuseRuns (ps.map (fun k => [k])) l = .ok l' ∧ List.Forall₂ Alike l l' ∧ (l.map (·.id) = List.range' 1 l.length → l'.map (·.id) = l.map (·.id))
  | [], l, _ => ⟨l, rfl, List.forall₂_same.mpr (fun y _ => alike_refl y), fun _ => rfl⟩
  | k :: ps, l, h => by
    have hk := h k List.mem_cons_self
    have hget : l[k]? = some l[k] := List.getElem?_eq_getElem hk
    have hf : fuse l k (k + 1) = .ok (l.set k { l[k] with id := k + 1 }) := by
      unfold fuse
      rw [if_pos (by omega), hget]
    obtain ⟨l', h1, h2, h3⟩ := fuseRuns_single ps (l.set k { l[k] with id := k + 1 }) (fun q hq => by rw [List.length_set]; exact h q (List.mem_cons_of_mem _ hq))
    refine ⟨l', ?_, forall2_trans (R := Alike) (fun _ _ _ => alike_trans) (forall2_set hget (k + 1)) h2, fun hid => ?_⟩
    · rw [List.map_cons, fuseRuns]
      simp only [List.head?_cons, List.getLast?_singleton, hf]
      exact h1
    · have hset : (l.set k { l[k] with id := k + 1 }).map (·.id) = l.map (·.id) := by
        rw [List.map_set]
        have : (l.map (·.id))[k]? = some (k + 1) := by
          rw [hid, List.getElem?_range' hk]
          congr 1
          omega
        exact set_same this
      rw [h3 (by rw [hset, List.length_set]; exact hid), hset]

end Geouned.Load
