import Verif.Load.TextLemmas
/-!
# Lemmas on the loop over the elements
-/
namespace Geouned.Load

variable {S : Type}

/-- a list, or nothing for the empty one -/
def optS (l : List S) : Option (List S) := if l = [] then none else some l

theorem firstMetas_append (o : Opts) (spl : S → Bool) : ∀ (a b : List S) (j : Nat), firstMetas o spl (a ++ b) j = firstMetas o spl a j ++ firstMetas o spl b (j + a.length)
  | [], b, j => rfl
  | s :: a, b, j => by
    rw [List.cons_append, firstMetas, firstMetas, firstMetas_append o spl a b (j + 1), List.cons_append, List.length_cons, Nat.add_right_comm, Nat.add_assoc]

theorem firstMetas_length (o : Opts) (spl : S → Bool) : ∀ (a : List S) (j : Nat), (firstMetas o spl a j).length = a.length
  | [], _ => rfl
  | s :: a, j => by rw [firstMetas, List.length_cons, firstMetas_length o spl a (j + 1), List.length_cons]

theorem kept_one (o : Opts) (spl : S → Bool) (s : S) : (if spl s && o.remove then none else some [s]) = optS (keptSolids o.remove spl [s]) := by
  unfold optS keptSolids
  cases o.remove <;> cases h : spl s <;> simp [h]

theorem kept_cons (r : Bool) (spl : S → Bool) (s : S) (l : List S) : keptSolids r spl (s :: l) = keptSolids r spl [s] ++ keptSolids r spl l := by
  unfold keptSolids
  cases r
  · rfl
  · simp only [if_true, List.filter_cons, List.filter_nil]
    cases spl s <;> rfl

theorem kept_append (r : Bool) (spl : S → Bool) : ∀ (a b : List S), keptSolids r spl (a ++ b) = keptSolids r spl a ++ keptSolids r spl b
  | [], b => by cases r <;> rfl
  | s :: a, b => by rw [List.cons_append, kept_cons, kept_append r spl a b, kept_cons r spl s a, List.append_assoc]

theorem optS_getD (l : List S) : (optS l).getD [] = l := by
  unfold optS
  split
  · next h => rw [h]; rfl
  · rfl

theorem firstMetas_solids (o : Opts) (spl : S → Bool) : ∀ (a : List S) (j : Nat), (firstMetas o spl a j).flatMap (fun x => x.solids.getD []) = keptSolids o.remove spl a
  | [], _ => by cases h : o.remove <;> rfl
  | s :: a, j => by
    rw [firstMetas, List.flatMap_cons, firstMetas_solids o spl a (j + 1), kept_cons]
    dsimp only
    rw [kept_one, optS_getD]

/-- the cells of an element made one -/
theorem fuse_block (o : Opts) (spl : S → Bool) (done rest : List (Meta S)) (a : List S) (j : Nat) (ha : a ≠ []) :
    fuse (done ++ (firstMetas o spl a j ++ rest)) done.length (done.length + a.length) =
      .ok (done ++ ([{ id := done.length + 1, solids := optS (keptSolids o.remove spl a) }] ++ rest)) := by
  have hflat := firstMetas_solids o spl a j
  have hlen := firstMetas_length o spl a j
  cases a with
  | nil => exact absurd rfl ha
  | cons s a =>
    have hget : (done ++ (firstMetas o spl (s :: a) j ++ rest))[done.length]? = some { id := j + 1, solids := if spl s && o.remove then none else some [s] } := by
      rw [List.getElem?_append_right (le_refl _), Nat.sub_self, firstMetas]
      rfl
    unfold fuse
    split
    · next h1 =>
      have : a = [] := by
        have : (s :: a).length = 1 := by omega
        simpa using this
      subst this
      rw [hget]
      dsimp only
      congr 1
      rw [firstMetas, firstMetas, kept_one]
      rw [List.set_append_right _ _ (le_refl _), Nat.sub_self]
      rfl
    · rw [hget]
      dsimp only
      congr 1
      have e1 : (List.take (done.length + (s :: a).length) (done ++ (firstMetas o spl (s :: a) j ++ rest))).drop done.length = firstMetas o spl (s :: a) j := by
        rw [List.take_length_add_append, ← hlen, List.take_left, List.drop_left]
      have e2 : max done.length (done.length + (s :: a).length) = done.length + (s :: a).length := by omega
      have e3 : List.drop (done.length + (s :: a).length) (done ++ (firstMetas o spl (s :: a) j ++ rest)) = rest := by
        rw [List.drop_length_add_append, ← hlen, List.drop_left]
      rw [e1, hflat, e2, e3, List.take_left, List.append_assoc]
      rfl

/-- what `attrLoop` does with the cells of an element -/
def attrs (o : Opts) (f : Found) (comment : List Char) : Nat → List (Meta S) → Except Exc (List (Meta S))
  | _, [] => .ok []
  | i, m :: ms =>
    match setAll o f comment i m with
    | .error x => .error x
    | .ok m' =>
      match attrs o f comment (i + 1) ms with
      | .error x => .error x
      | .ok ms' => .ok (m' :: ms')

theorem attrLoop_block (o : Opts) (f : Found) (cm : List Char) : ∀ (A : List (Meta S)) (i : Nat) (done rest : List (Meta S)),
    attrLoop o f cm A.length i done.length (done ++ (A ++ rest)) =
      match attrs o f cm i A with
      | .error x => .error x
      | .ok A' => .ok (done ++ (A' ++ rest))
  | [], i, done, rest => rfl
  | m :: A, i, done, rest => by
    have hget : (done ++ (m :: A ++ rest))[done.length]? = some m := by
      rw [List.getElem?_append_right (le_refl _), Nat.sub_self]
      rfl
    rw [List.length_cons, attrLoop, hget, attrs]
    dsimp only
    cases hs : setAll o f cm i m with
    | error x => rfl
    | ok m' =>
      dsimp only
      have e1 : (done ++ (m :: A ++ rest)).set done.length m' = (done ++ [m']) ++ (A ++ rest) := by
        rw [List.set_append_right _ _ (le_refl _), Nat.sub_self]
        simp
      have e2 : done.length + 1 = (done ++ [m']).length := by simp
      rw [e1, e2, attrLoop_block o f cm A (i + 1) (done ++ [m']) rest]
      cases attrs o f cm (i + 1) A with
      | error x => rfl
      | ok A' => simp

/-- the cells of an element before its labels are read -/
def blockOf (o : Opts) (spl : S → Bool) (f : Found) (a : List S) (p j : Nat) : List (Meta S) :=
  if o.comp || f.encl.isSome || f.envel.isSome then [{ id := p + 1, solids := optS (keptSolids o.remove spl a) }] else firstMetas o spl a j

/-- the loop over the elements, one element -/
theorem elemLoop_cons (o : Opts) (spl : S → Bool) (e : Elem S) (es : List (Elem S)) (done : List (Meta S)) (j : Nat) (he : e.solids ≠ []) :
    elemLoop o (e :: es) done.length (done ++ firstMetas o spl ((e :: es).flatMap (·.solids)) j) =
      match attrs o (findAll o e) (elemComment o e) 0 (blockOf o spl (findAll o e) e.solids done.length j) with
      | .error x => .error x
      | .ok A' => elemLoop o es (done ++ A').length ((done ++ A') ++ firstMetas o spl (es.flatMap (·.solids)) (j + e.solids.length)) := by
  rw [elemLoop, if_neg he, List.flatMap_cons, firstMetas_append]
  have hA : ∀ {i : Nat} {A A' : List (Meta S)}, attrs o (findAll o e) (elemComment o e) i A = .ok A' → A'.length = A.length := by
    intro i A
    induction A generalizing i with
    | nil =>
      intro A' h
      cases h
      rfl
    | cons m A ih =>
      intro A' h
      rw [attrs] at h
      cases hs : setAll o (findAll o e) (elemComment o e) i m with
      | error x => rw [hs] at h; cases h
      | ok m' =>
        rw [hs] at h
        dsimp only at h
        cases hr : attrs o (findAll o e) (elemComment o e) (i + 1) A with
        | error x => rw [hr] at h; cases h
        | ok B =>
          rw [hr] at h
          cases h
          rw [List.length_cons, List.length_cons, ih hr]
  unfold fuseElem blockOf
  by_cases hc : (o.comp || (findAll o e).encl.isSome || (findAll o e).envel.isSome) = true
  · rw [if_pos hc, if_pos hc, fuse_block o spl done _ e.solids j he]
    dsimp only
    have := attrLoop_block o (findAll o e) (elemComment o e) [{ id := done.length + 1, solids := optS (keptSolids o.remove spl e.solids) }] 0 done
      (firstMetas o spl (es.flatMap (·.solids)) (j + e.solids.length))
    rw [List.length_singleton] at this
    rw [this]
    cases hr : attrs o (findAll o e) (elemComment o e) 0 [{ id := done.length + 1, solids := optS (keptSolids o.remove spl e.solids) }] with
    | error x => rfl
    | ok A' =>
      dsimp only
      rw [List.length_append, hA hr, List.append_assoc]
      rfl
  · rw [if_neg hc, if_neg hc]
    dsimp only
    have := attrLoop_block o (findAll o e) (elemComment o e) (firstMetas o spl e.solids j) 0 done (firstMetas o spl (es.flatMap (·.solids)) (j + e.solids.length))
    rw [firstMetas_length] at this
    rw [this]
    cases hr : attrs o (findAll o e) (elemComment o e) 0 (firstMetas o spl e.solids j) with
    | error x => rfl
    | ok A' =>
      dsimp only
      rw [List.length_append, hA hr, List.append_assoc, firstMetas_length]

/-- the fields `setAll` gives to a new cell -/
theorem setAll_spec {o : Opts} {f : Found} {cm : List Char} {i id : Nat} {sols : Option (List S)} {m' : Meta S}
    (h : setAll o f cm i { id := id, solids := sols } = .ok m') :
    m'.id = id ∧ m'.solids = sols ∧ m'.comments = cm ++ Nat.toDigits 10 (i + 1) ∧ m'.fill = f.fill ∧ m'.trans = f.trans ∧ MatOf o f.mat m' ∧
      m'.dilution = ((f.dil).map decOf).getD 1 ∧ m'.density = some (m'.rho.getD 0 * m'.dilution) ∧ EnclOf f.encl f.envel m' := by
  unfold setAll at h
  dsimp only at h
  -- the material
  generalize hm : setMat o f ({ id := id, solids := sols, comments := cm ++ Nat.toDigits 10 (i + 1) } : Meta S) = m1 at h
  have hm1 : m1.id = id ∧ m1.solids = sols ∧ m1.comments = cm ++ Nat.toDigits 10 (i + 1) ∧ m1.fill = none ∧ m1.trans = none ∧ m1.dilution = 1 ∧ m1.kind = .solid ∧
      m1.isEnclosure = false ∧ m1.enclId = none ∧ m1.density = some (m1.rho.getD 0) ∧ MatOf o f.mat m1 := by
    rw [← hm]
    unfold setMat setMaterial MatOf
    cases f.mat with
    | none =>
      dsimp only
      cases hv : o.voidMat with
      | none => simp
      | some v => simp
    | some k =>
      dsimp only
      cases hk : o.matFile k with
      | some v => exact ⟨rfl, rfl, rfl, rfl, rfl, rfl, rfl, rfl, rfl, by simp, rfl, Or.inl ⟨v.1, v.2, hk, rfl, rfl⟩⟩
      | none =>
        dsimp only
        by_cases h0 : k = 0
        · rw [if_pos h0]
          exact ⟨rfl, rfl, rfl, rfl, rfl, rfl, rfl, rfl, rfl, by simp, rfl, Or.inr (Or.inl ⟨hk, h0, rfl⟩)⟩
        · rw [if_neg h0]
          exact ⟨rfl, rfl, rfl, rfl, rfl, rfl, rfl, rfl, rfl, by simp, rfl, Or.inr (Or.inr ⟨hk, h0, rfl⟩)⟩
  obtain ⟨a1, a2, a3, a4, a5, a6, a7, a8, a9, a10, a11⟩ := hm1
  cases hd : setDil f { m1 with fill := f.fill.or m1.fill, trans := f.trans.or m1.trans } with
  | error x => rw [hd] at h; cases h
  | ok m3 =>
    rw [hd] at h
    dsimp only at h
    simp only [Except.ok.injEq] at h
    have c : m3.id = m1.id ∧ m3.solids = m1.solids ∧ m3.comments = m1.comments ∧ m3.fill = f.fill ∧ m3.trans = f.trans ∧ m3.kind = m1.kind ∧
        m3.isEnclosure = m1.isEnclosure ∧ m3.enclId = m1.enclId ∧ m3.material = m1.material ∧ m3.rho = m1.rho ∧ m3.info = m1.info ∧
        m3.dilution = (f.dil.map decOf).getD 1 ∧ m3.density = some (m3.rho.getD 0 * m3.dilution) := by
      unfold setDil at hd
      cases hdil : f.dil with
      | none =>
        rw [hdil] at hd
        dsimp only at hd
        cases hd
        refine ⟨rfl, rfl, rfl, by rw [a4]; simp, by rw [a5]; simp, rfl, rfl, rfl, rfl, rfl, rfl, a6, ?_⟩
        dsimp only
        rw [a10, a6, mul_one]
      | some ab =>
        rw [hdil] at hd
        dsimp only at hd
        cases hv : decVal ab.1 ab.2 with
        | error x => rw [hv] at hd; cases hd
        | ok d =>
          rw [hv] at hd
          simp only [Except.ok.injEq] at hd
          have hdv : d = decOf ab := by
            unfold decVal at hv
            split at hv
            · cases hv
            · simp only [Except.ok.injEq] at hv
              rw [← hv, digVal_number, digVal_number]
              rfl
          subst hd
          refine ⟨rfl, rfl, rfl, by simp [setDilution, a4], by simp [setDilution, a5], rfl, rfl, rfl, rfl, rfl, rfl, hdv, ?_⟩
          unfold setDilution
          dsimp only
          cases hr : m1.rho with
          | some r => rfl
          | none => simp [a10, hr]
    obtain ⟨c1, c2, c3, c4, c5, c6, c7, c8, c9, c10, c11, c12, c13⟩ := c
    have d : m'.id = m3.id ∧ m'.solids = m3.solids ∧ m'.comments = m3.comments ∧ m'.fill = m3.fill ∧ m'.trans = m3.trans ∧ m'.material = m3.material ∧
        m'.rho = m3.rho ∧ m'.info = m3.info ∧ m'.dilution = m3.dilution ∧ m'.density = m3.density := by
      rw [← h]
      unfold setEncl
      cases f.envel with
      | some p => exact ⟨rfl, rfl, rfl, rfl, rfl, rfl, rfl, rfl, rfl, rfl⟩
      | none =>
        cases f.encl with
        | some p => exact ⟨rfl, rfl, rfl, rfl, rfl, rfl, rfl, rfl, rfl, rfl⟩
        | none => exact ⟨rfl, rfl, rfl, rfl, rfl, rfl, rfl, rfl, rfl, rfl⟩
    obtain ⟨d1, d2, d3, d4, d5, d6, d7, d8, d9, d10⟩ := d
    refine ⟨by rw [d1, c1, a1], by rw [d2, c2, a2], by rw [d3, c3, a3], by rw [d4, c4], by rw [d5, c5], ?_, by rw [d9, c12], by rw [d10, c13, d7, d9], ?_⟩
    · have e1 : m'.material = m1.material := by rw [d6, c9]
      have e2 : m'.rho = m1.rho := by rw [d7, c10]
      have e3 : m'.info = m1.info := by rw [d8, c11]
      unfold MatOf MaterialIs at a11 ⊢
      rw [e1, e2, e3]
      exact a11
    · rw [← h]
      unfold setEncl EnclOf
      cases f.envel with
      | some p => exact ⟨rfl, rfl, rfl, rfl⟩
      | none =>
        cases f.encl with
        | some p => exact ⟨rfl, rfl, rfl, rfl⟩
        | none => exact ⟨by rw [c7, a8], by rw [c6, a7], by rw [c8, a9]⟩

end Geouned.Load
