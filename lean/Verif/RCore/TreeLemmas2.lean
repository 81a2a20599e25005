import Verif.RCore.TreeLemmas
/-! # Lemmas for C128: the loops -/
namespace Geouned.RCore
open TreeSpec List

variable {S : Type}

theorem fmt_eq (c : Option Int) : fmt c = nameOf c := by cases c <;> rfl

/-- label and shape of a feature -/
def feat (o : Obj S) : Option (List Char × S) :=
  match o.kind, o.shape with
  | .feature, some s => some (o.label, s)
  | _, _ => none

def matPart (container : Option Int) (uni : Int) (x : Int × List Nat) : Obj S :=
  ⟨.part, "Material_".toList ++ Text.strInt x.1 ++ '_' :: (fmt container ++ Text.strInt uni), none, x.2⟩

theorem matLoop_eq (d : List (Int × List Nat)) (c : Option Int) (u : Int) {g : Nat} : ∀ (doc : Doc S), g < doc.length →
    matLoop doc g c u d = addObjects doc g (range' doc.length d.length) ++ d.map (matPart c u) := by
  induction d with
  | nil => intro doc _; simp [matLoop, addObjects_nil]
  | cons x d ih =>
    intro doc hg
    obtain ⟨m, l⟩ := x
    unfold matLoop
    simp only [newObj, setLabel, modify_last, addObjects]
    rw [show ((doc ++ [({ kind := Kind.part, label := "Material_".toList ++ Text.strInt m ++ '_' :: (fmt c ++ Text.strInt u), shape := none, children := [] ++ l } : Obj S)]).modify g
        fun o => { kind := o.kind, label := o.label, shape := o.shape, children := o.children ++ [doc.length] }) = addObjects (doc ++ [matPart c u (m, l)]) g [doc.length] from rfl]
    rw [addObjects_append _ _ _ hg, ih _ (by simp; omega), addObjects_append _ _ _ (by simpa using hg), addObjects_add]
    simp only [List.length_append, addObjects_length, List.length_cons, List.length_nil, List.map_cons, List.range'_succ, List.append_assoc, List.singleton_append]
    rfl

/-- the parts of the materials show their solids -/
theorem matShow {doc : Doc S} {b : Nat} {c : Option Int} {u : Int} {pre : List (Item S)} : ∀ (d : List (Int × List Nat)) (n : Nat), b ≤ n →
    (∀ x ∈ d, SAB doc b x.2 (solidsOf x.1 pre)) → (∀ i, i < d.length → doc[n + i]? = (d[i]?).map (matPart c u)) →
    SAB doc b (range' n d.length) ((d.map Prod.fst).map fun m => .part ("Material_".toList ++ Text.strInt m ++ '_' :: (fmt c ++ Text.strInt u)) (solidsOf m pre))
  | [], _, _, _, _ => .nil
  | x :: d, n, hb, hx, hg => by
    simp only [List.length_cons, List.range'_succ, List.map_cons]
    refine .cons ?_ (matShow d (n + 1) (by omega) (fun y hy => hx y (List.mem_cons_of_mem _ hy)) fun i hi => ?_)
    · have h0 : doc[n]? = some (matPart c u x) := by simpa using hg 0 (by simp)
      exact SB.part hb h0 rfl (hx x (List.mem_cons_self ..))
    · have := hg (i + 1) (by simpa using hi)
      rw [show n + 1 + i = n + (i + 1) by omega, this]
      simp

/-- what a run over the content of a universe gives -/
structure LoopOk (doc : Doc S) (g : Nat) (cad : List (Int × List Nat)) (pre items : List (Item S)) (out : Doc S × List (Int × List Nat)) (new : Doc S) (rs : List Nat) : Prop where
  eq : out.1 = addObjects doc g rs ++ new
  showIn : SAB out.1 (g + 1) rs (inner items)
  dict : CadOk out.1 (g + 1) out.2 (pre ++ items)
  perm : new.flatMap Obj.children ++ rs ++ out.2.flatMap Prod.snd ~ cad.flatMap Prod.snd ++ range' doc.length new.length
  feats : new.filterMap feat = (cellsOfAll items).map fun x => ("Cell_".toList ++ Text.strInt x.1 ++ '_' :: Text.strInt x.2.1, x.2.2)
  keep : ∀ j ∈ cad.flatMap Prod.snd, j ∈ out.2.flatMap Prod.snd
  within : ∀ j, doc.length ≤ j → j < doc.length + new.length → j ∈ out.2.flatMap Prod.snd ∨ ∃ r ∈ rs, Within out.1 r j

/-- what making the tree of a universe gives -/
structure TreeOk (doc : Doc S) (t : Tree S) (cells : List (Int × Int × S)) (out : Doc S × Nat) (new : Doc S) : Prop where
  eq : out.1 = doc ++ new
  ref : out.2 = doc.length
  pos : 0 < new.length
  shows : SB out.1 doc.length doc.length t
  perm : new.flatMap Obj.children ~ range' (doc.length + 1) (new.length - 1)
  feats : new.filterMap feat = cells.map fun x => ("Cell_".toList ++ Text.strInt x.1 ++ '_' :: Text.strInt x.2.1, x.2.2)
  within : ∀ j, doc.length ≤ j → j < doc.length + new.length → Within out.1 doc.length j

theorem ext_add (doc : Doc S) (g : Nat) (l : List Nat) (x : Doc S) : ∀ (j : Nat) (o : Obj S), g + 1 ≤ j → doc[j]? = some o → (addObjects doc g l ++ x)[j]? = some o := by
  intro j o hj h
  have hl := (List.getElem?_eq_some_iff.1 h).1
  rw [List.getElem?_append_left (by simpa using hl), addObjects_get _ (by omega), h]

theorem tree_of_loop {doc : Doc S} {c : Option Int} {u : Int} {items : List (Item S)} {new : Doc S} {rs : List Nat} {g : Nat} (hgd : g = doc.length) {o : Obj S}
    (ho : o = ⟨.part, "Universe_".toList ++ Text.strInt u ++ "_Container_".toList ++ fmt c, none, []⟩)
    (h : LoopOk (doc ++ [o]) g [] [] items (itemLoop (doc ++ [o]) g [] items) new rs) :
    ∃ new', TreeOk doc (treeOf c u items) (cellsOfAll items) (makeTree doc c u items) new' := by
  subst hgd
  have hm : makeTree doc c u items = (matLoop (itemLoop (doc ++ [o]) doc.length [] items).1 doc.length c u (itemLoop (doc ++ [o]) doc.length [] items).2, doc.length) := by
    rw [makeTree]
    simp only [newObj, setLabel, modify_last, ← ho]
  obtain ⟨h1, h2, h3, h4, h5, hk, h6⟩ := h
  rw [hm]
  generalize itemLoop (doc ++ [o]) doc.length [] items = out at *
  obtain ⟨d1, cad⟩ := out
  dsimp only at *
  have hl : d1.length = doc.length + 1 + new.length := by rw [h1]; simp
  have hlt : doc.length < d1.length := by omega
  have hmat := matLoop_eq cad c u d1 hlt
  set rs2 := range' d1.length cad.length with hrs2
  have hd1 : d1 = doc ++ [{ o with children := rs }] ++ new := by
    rw [h1, addObjects]
    rw [modify_last]
    rw [ho]; rfl
  have hfin : addObjects d1 doc.length rs2 ++ cad.map (matPart c u) = doc ++ ({ o with children := rs ++ rs2 } :: (new ++ cad.map (matPart c u))) := by
    rw [hd1, List.append_assoc doc] 
    rw [show addObjects (doc ++ ([({ o with children := rs } : Obj S)] ++ new)) doc.length rs2 = doc ++ ([{ o with children := rs ++ rs2 }] ++ new) by
      rw [← List.append_assoc, addObjects_append _ _ _ (by simp), addObjects, modify_last, List.append_assoc]]
    simp
  have hget : (doc ++ (({ o with children := rs ++ rs2 } : Obj S) :: (new ++ cad.map (matPart c u))))[doc.length]? = some { o with children := rs ++ rs2 } := by simp
  have hext := ext_add d1 doc.length rs2 (cad.map (matPart c u))
  rw [hmat]
  refine ⟨_ :: (new ++ cad.map (matPart c u)), hfin, rfl, by simp, ?_, ?_, ?_, ?_⟩
  · -- shows
    have hs1 := h2.mono (Nat.le_refl _) hext
    have hs2 : SAB (addObjects d1 doc.length rs2 ++ cad.map (matPart c u)) (doc.length + 1) rs2
        ((cad.map Prod.fst).map fun m => .part ("Material_".toList ++ Text.strInt m ++ '_' :: (fmt c ++ Text.strInt u)) (solidsOf m ([] ++ items))) := by
      refine matShow cad d1.length (by omega) (h3.mono hext).vals fun i hi => ?_
      rw [List.getElem?_append_right (by simp), addObjects_length, Nat.add_sub_cancel_left, List.getElem?_map]
    rw [h3.keys] at hs2
    simp only [List.nil_append] at hs2
    have := (hs1.append hs2).mono (Nat.le_succ doc.length) (fun j o _ h => h)
    rw [hfin] at this ⊢
    have hh := SB.part (Nat.le_refl doc.length) hget (by rw [ho]) this
    rw [treeOf]
    rw [ho] at hh ⊢
    simp only [fmt_eq] at hh ⊢
    exact hh
  · -- perm
    simp only [List.flatMap_cons, List.flatMap_append, List.length_cons, List.length_append, List.length_map]
    have e1 : (cad.map (matPart (S := S) c u)).flatMap Obj.children = cad.flatMap Prod.snd := by
      rw [List.flatMap_map]; rfl
    rw [e1]
    simp only [List.flatMap_nil, List.nil_append, List.length_append, List.length_cons, List.length_nil] at h4
    have e2 : range' (doc.length + 1) (new.length + cad.length + 1 - 1) = range' (doc.length + 1) new.length ++ rs2 := by
      rw [hrs2, hl, Nat.add_sub_cancel]
      rw [List.range'_append_1]
    rw [e2]
    have p1 : rs ++ rs2 ++ (new.flatMap Obj.children ++ cad.flatMap Prod.snd) ~ new.flatMap Obj.children ++ rs ++ cad.flatMap Prod.snd ++ rs2 := by
      have : rs ++ rs2 ++ (new.flatMap Obj.children ++ cad.flatMap Prod.snd) ~ (new.flatMap Obj.children ++ cad.flatMap Prod.snd) ++ (rs ++ rs2) := List.perm_append_comm
      refine this.trans ?_
      rw [← List.append_assoc]
      refine Perm.append_right _ ?_
      rw [List.append_assoc, List.append_assoc]
      exact List.perm_append_comm.append_left _
    exact p1.trans (h4.append_right _)
  · rw [List.filterMap_cons]
    have : feat ({ o with children := rs ++ rs2 } : Obj S) = none := by rw [ho]; rfl
    rw [this]
    simp only [List.filterMap_append, h5]
    have e1 : (cad.map (matPart (S := S) c u)).filterMap feat = [] := by
      rw [List.filterMap_map, List.filterMap_eq_nil_iff]; intro x _; rfl
    rw [e1, List.append_nil]
  · intro j hj1 hj2
    have hself : ∀ r ∈ rs ++ rs2, Within (addObjects d1 doc.length rs2 ++ cad.map (matPart c u)) doc.length r := by
      intro r hr
      rw [hfin]
      exact .step .refl hget hr
    have hgrow : ∀ (k : Nat) (o' : Obj S), d1[k]? = some o' → ∃ o'' : Obj S, (addObjects d1 doc.length rs2 ++ cad.map (matPart c u))[k]? = some o'' ∧ ∀ c ∈ o'.children, c ∈ o''.children := by
      intro k o' hk
      obtain ⟨o1, h1, h2⟩ := grow_add d1 doc.length rs2 k o' hk
      obtain ⟨o2, h3, h4⟩ := grow_append _ (cad.map (matPart c u)) k o1 h1
      exact ⟨o2, h3, fun c hc => h4 c (h2 c hc)⟩
    simp only [List.length_cons, List.length_append, List.length_map] at hj2
    by_cases h0 : j = doc.length
    · subst h0; exact .refl
    by_cases hj3 : j < doc.length + 1 + new.length
    · rcases h6 j (by simp; omega) (by simp; omega) with hc | ⟨r, hr, hw⟩
      · obtain ⟨x, hx, hjx⟩ := List.mem_flatMap.1 hc
        obtain ⟨i, hi, rfl⟩ := List.getElem_of_mem hx
        have hr : d1.length + i ∈ rs2 := by rw [hrs2, List.mem_range'_1]; omega
        refine .step (hself _ (List.mem_append_right _ hr)) (o := matPart c u cad[i]) ?_ hjx
        rw [List.getElem?_append_right (by simp), addObjects_length, Nat.add_sub_cancel_left, List.getElem?_map, List.getElem?_eq_getElem hi]
        rfl
      · exact (hself r (List.mem_append_left _ hr)).trans' (hw.mono hgrow)
    · refine hself j (List.mem_append_right _ ?_)
      rw [hrs2, List.mem_range'_1]; omega

theorem loop_ok (n : Nat) : ∀ (items : List (Item S)), sizeOf items < n → ∀ (doc : Doc S) (g : Nat) (cad : List (Int × List Nat)) (pre : List (Item S)), g < doc.length →
    CadOk doc (g + 1) cad pre → ∃ new rs, LoopOk doc g cad pre items (itemLoop doc g cad items) new rs := by
  induction n with
  | zero => intro items h; omega
  | succ n ihn =>
    intro items hn doc g cad pre hg hc
    induction items generalizing doc cad pre with
    | nil =>
      refine ⟨[], [], ?_⟩
      rw [itemLoop]
      refine ⟨by simp [addObjects_nil], by rw [TreeSpec.inner]; exact .nil, by simpa using hc, by simp, by simp [cellsOfAll], fun _ h => h, ?_⟩
      intro j h1 h2
      simp at h2; omega
    | cons it items ih =>
      have hs : sizeOf items < n + 1 := by simp at hn; omega
      cases it with
      | cell name m s =>
        rw [itemLoop]
        simp only [newObj, setLabel, setShape, modify_last]
        set o : Obj S := ⟨.feature, "Cell_".toList ++ Text.strInt name ++ '_' :: Text.strInt m, some s, []⟩ with ho
        have hget : (doc ++ [o])[doc.length]? = some o := by simp
        have hc' : CadOk (doc ++ [o]) (g + 1) (addFeat cad m doc.length) (pre ++ [.cell name m s]) := by
          refine CadOk.add (hc.mono ?_) (SB.solid (o := o) hg hget rfl rfl rfl)
          intro j o' _ h
          rw [List.getElem?_append_left (List.getElem?_eq_some_iff.1 h).1, h]
        obtain ⟨new, rs, h1, h2, h3, h4, h5, hk, h6⟩ := ih hs (doc ++ [o]) (addFeat cad m doc.length) (pre ++ [.cell name m s]) (by simp; omega) hc'
        refine ⟨o :: new, rs, ?_, by rw [TreeSpec.inner]; exact h2, by simpa using h3, ?_, ?_, fun j hj => hk j ((addFeat_perm cad m doc.length).mem_iff.2 (List.mem_append_left _ hj)), ?_⟩
        · rw [h1, addObjects_append _ _ _ hg]; simp
        · simp only [List.flatMap_cons]
          rw [show o.children = [] from rfl, List.nil_append]
          refine h4.trans ?_
          rw [show (doc ++ [o]).length = doc.length + 1 by simp, List.length_cons, List.range'_succ]
          have := (addFeat_perm cad m doc.length).append_right (range' (doc.length + 1) new.length)
          refine this.trans ?_
          rw [List.append_assoc]; rfl
        · rw [List.filterMap_cons, show feat o = some ("Cell_".toList ++ Text.strInt name ++ '_' :: Text.strInt m, s) from rfl]
          simp only [h5, cellsOfAll, cellsOf, List.map_append, List.map_cons, List.map_nil, List.singleton_append]
        · intro j hj1 hj2
          by_cases h0 : j = doc.length
          · subst h0
            exact .inl (hk _ ((addFeat_perm cad m doc.length).mem_iff.2 (by simp)))
          · exact h6 j (by simp; omega) (by simp at hj2 ⊢; omega)
      | univ c u l =>
        have hsl : sizeOf l < n := by simp at hn; omega
        set o : Obj S := ⟨.part, "Universe_".toList ++ Text.strInt u ++ "_Container_".toList ++ fmt c, none, []⟩ with ho
        obtain ⟨new0, rs0, h0⟩ := ihn l hsl (doc ++ [o]) doc.length [] [] (by simp) ⟨rfl, by simp⟩
        obtain ⟨new1, ht⟩ := tree_of_loop rfl ho h0
        obtain ⟨t1, t2, t3, t4, t5, t6, t7⟩ := ht
        rw [itemLoop]
        generalize makeTree doc c u l = out at *
        obtain ⟨d1, r⟩ := out
        dsimp only at *
        subst t1 t2
        have hext : ∀ (j : Nat) (o : Obj S), g + 1 ≤ j → (doc ++ new1)[j]? = some o → (addObjects (doc ++ new1) g [doc.length])[j]? = some o := by
          intro j o' hj h
          rw [addObjects_get _ (by omega), h]
        have hc' : CadOk (addObjects (doc ++ new1) g [doc.length]) (g + 1) cad (pre ++ [.univ c u l]) := by
          refine ⟨by rw [mats_append]; simpa [mats] using hc.keys, fun x hx => ?_⟩
          rw [solidsOf_append]
          simp only [solidsOf, List.append_nil]
          refine (hc.vals x hx).mono (Nat.le_refl _) fun j o' hj h => hext j o' hj ?_
          rw [List.getElem?_append_left (List.getElem?_eq_some_iff.1 h).1, h]
        obtain ⟨new, rs, h1, h2, h3, h4, h5, hk, h6⟩ := ih hs (addObjects (doc ++ new1) g [doc.length]) cad (pre ++ [.univ c u l]) (by simp; omega) hc'
        have heq : (itemLoop (addObjects (doc ++ new1) g [doc.length]) g cad items).1 = addObjects doc g (doc.length :: rs) ++ (new1 ++ new) := by
          rw [h1, addObjects_add, addObjects_append _ _ _ hg]; simp
        have hgrow : ∀ (k : Nat) (o' : Obj S), (doc ++ new1)[k]? = some o' →
            ∃ o'' : Obj S, (itemLoop (addObjects (doc ++ new1) g [doc.length]) g cad items).1[k]? = some o'' ∧ ∀ c ∈ o'.children, c ∈ o''.children := by
          intro k o' hk'
          rw [h1, addObjects_add]
          obtain ⟨o1, e1, e2⟩ := grow_add (doc ++ new1) g ([doc.length] ++ rs) k o' hk'
          obtain ⟨o2, e3, e4⟩ := grow_append _ new k o1 e1
          exact ⟨o2, e3, fun c hc => e4 c (e2 c hc)⟩
        refine ⟨new1 ++ new, doc.length :: rs, heq, ?_, by simpa using h3, ?_, ?_, hk, ?_⟩
        · rw [TreeSpec.inner]
          refine .cons (t4.mono hg fun j o' hj h => ?_) h2
          rw [h1, addObjects_add]
          exact ext_add _ _ _ _ j o' (by omega) h
        · simp only [List.flatMap_append]
          rw [show (addObjects (doc ++ new1) g [doc.length]).length = doc.length + new1.length by simp] at h4
          have e0 : range' doc.length (new1 ++ new).length = doc.length :: (range' (doc.length + 1) (new1.length - 1) ++ range' (doc.length + new1.length) new.length) := by
            rw [List.length_append, ← List.range'_append_1 (m := new1.length)]
            obtain ⟨k, hk⟩ : ∃ k, new1.length = k + 1 := ⟨new1.length - 1, by omega⟩
            rw [hk, List.range'_succ]; rfl
          rw [e0]
          generalize new1.flatMap Obj.children = A at *
          generalize range' (doc.length + 1) (new1.length - 1) = A' at *
          generalize new.flatMap Obj.children = B at *
          generalize range' (doc.length + new1.length) new.length = B' at *
          generalize (itemLoop (addObjects (doc ++ new1) g [doc.length]) g cad items).2.flatMap Prod.snd = C at *
          generalize cad.flatMap Prod.snd = C' at *
          rw [List.perm_iff_count] at h4 t5 ⊢
          intro a
          have e1 := h4 a
          have e2 := t5 a
          simp only [List.count_append, List.count_cons] at e1 e2 ⊢
          omega
        · rw [List.filterMap_append, t6, h5]
          simp only [cellsOfAll, cellsOf, List.map_append]
        · intro j hj1 hj2
          by_cases hj : j < doc.length + new1.length
          · exact .inr ⟨_, List.mem_cons_self .., (t7 j hj1 hj).mono hgrow⟩
          · rcases h6 j (by simp; omega) (by simp at hj2 ⊢; omega) with h | ⟨r, hr, hw⟩
            · exact .inl h
            · exact .inr ⟨r, List.mem_cons_of_mem _ hr, hw⟩

theorem tree_ok (doc : Doc S) (c : Option Int) (u : Int) (items : List (Item S)) : ∃ new, TreeOk doc (treeOf c u items) (cellsOfAll items) (makeTree doc c u items) new := by
  obtain ⟨new, rs, h⟩ := loop_ok (sizeOf items + 1) items (Nat.lt_succ_self _)
    (doc ++ [⟨.part, "Universe_".toList ++ Text.strInt u ++ "_Container_".toList ++ fmt c, none, []⟩]) doc.length [] [] (by simp) ⟨rfl, by simp⟩
  exact tree_of_loop rfl rfl h

end Geouned.RCore
