import Verif.Whole.BackLemmas
import Verif.McnpFile.ReadProps
/-!
# C127: the solid that GEOReverse makes of a cell card is the region written on the card

What a text means: `Text/Spec.lean` (`Means`), with `#`: `Rev/HashSpec.lean`. The CAD kernel and what is assumed of it: `Rev/SolidSpec.lean`.
-/
namespace Geouned.Back
open Geouned Geouned.Text Geouned.Rev Geouned.Rev.Solid

variable {α S Bx Sh : Type}

/-- The shape is the region `r`, for the points of the external box that are on none of the given surfaces and in none of the solids thrown
away for being too small (and, for a bounded cell, in its box `d`). -/
def IsRegion (K : Kernel α S Bx Sh) (mem : S → α → Prop) (on : Nat → α → Prop) (inBox : Bx → α → Prop) (r : α → Prop) (surfaces : List Nat) (ext : Bx)
    (d : Seq) (shape : Option S) (lost : List S) : Prop :=
  ∀ x, inBox ext x → (∀ v ∈ surfaces, ¬ on v x) → (∀ s ∈ lost, ¬ mem s x) →
    (r x → InShape mem shape x) ∧ (InCellBox K inBox d ext x → InShape mem shape x → r x)

/-- **C127** (full statement): every well-formed text of a cell is read and built without error, and the shape is the region that the text means. -/
def C127_statement : Prop :=
  ∀ (α S Bx Sh : Type) (K : Kernel α S Bx Sh) (mem : S → α → Prop) (on : Nat → α → Prop) (inBox : Bx → α → Prop), Right K mem on inBox →
    ∀ (ts : List Tok) (surfaces : List Nat) (ext : Bx), Readable ts → (∀ v, v ∈ surfaces ↔ RBool.written ts v) → ∀ f, ts.length + 3 ≤ f →
      ∃ d shape lost, buildFrom K (f + 1) (defOfText f ts) surfaces ext = .ok (d, shape, lost) ∧
        IsRegion K mem on inBox (fun x => Means (fun k => K.side k x) ts true) surfaces ext d shape lost

/-- `(1 2:-1 3) (-2:4)` -/
def joinText : List Tok := [.lp, .num 1, .blank, .num 2, .colon, .num (-1), .blank, .num 3, .rp, .blank, .lp, .num (-2), .colon, .num 4, .rp]

theorem joinText_reads (σ : Side) : ∃ b, Means σ joinText b :=
  ⟨_, .single (.and (t := [.lp, .num 1, .num 2, .colon, .num (-1), .num 3, .rp]) (u := [.lp, .num (-2), .colon, .num 4, .rp])
    (.paren (t := [.num 1, .num 2, .colon, .num (-1), .num 3]) (.or (t := [.num 1, .num 2]) (.and (t := [.num 1]) (.num 1 (by decide)) (.one (.num 2 (by decide))))
      (.single (.and (t := [.num (-1)]) (.num (-1) (by decide)) (.one (.num 3 (by decide)))))))
    (.one (.paren (t := [.num (-2), .colon, .num 4]) (.or (t := [.num (-2)]) (.one (.num (-2) (by decide))) (.single (.one (.num 4 (by decide))))))))⟩

theorem joinText_def : defOfText 18 joinText = .ok (.lst .and 2
    [.lst .or 1 [.lst .and 0 [.int 1, .int 2], .lst .and 0 [.int (-1), .int 3]], .lst .or 0 [.int (-2), .int 4]]) := rfl

theorem joinText_built : buildFrom (tableK 3 joinSide none) 19 (defOfText 18 joinText) [1, 2, 3, 4] joinBox = .ok (joinDef, some [0], []) := by
  have hb : buildCell (tableK 3 joinSide none) 19 joinDef [1, 2, 3, 4] joinBox = .ok (some [0], []) := by
    have h : (match buildCell (tableK 3 joinSide none) 19 joinDef [1, 2, 3, 4] joinBox with
        | .ok (some [0], []) => true
        | _ => false) = true := by decide +kernel
    split at h
    · next heq => exact heq
    · simp at h
  have hd : defOfText 18 joinText = .ok joinDef := joinText_def
  simp only [buildFrom, hd, hb]

theorem joinText_holds : Means (fun k => joinSide k 1) joinText true := by
  obtain ⟨d, h1, -, -, -, h3⟩ := def_spec ⟨fun _ => true, joinText_reads _⟩ (show joinText.length + 3 ≤ 18 by decide)
  have hd : defOfText 18 joinText = .ok joinDef := joinText_def
  have e : joinDef = d := Except.ok.inj (hd.symm.trans h1)
  subst e
  exact (h3 _ _).2 rfl

theorem joinText_written (v : Nat) : v ∈ [1, 2, 3, 4] ↔ RBool.written joinText v := by
  unfold RBool.written joinText
  simp
  omega

/-- **C127** fails for the text `(1 2:-1 3) (-2:4)`: half of the cell is missing in the shape (see `C77_join_violated`). -/
theorem C127_violated : ¬ C127_statement := by
  intro h
  obtain ⟨d, shape, lost, h1, h2⟩ := h _ _ _ _ (tableK 3 joinSide none) _ _ _ (tableK_right _ _ _) joinText [1, 2, 3, 4] joinBox
    ⟨fun _ => true, joinText_reads _⟩ joinText_written 18 (by decide)
  have e : (joinDef, some [0], []) = (d, shape, lost) := Except.ok.inj (joinText_built.symm.trans h1)
  have e2 : shape = some [0] := by rw [Prod.ext_iff, Prod.ext_iff] at e; exact e.2.1.symm
  have e3 : lost = [] := by rw [Prod.ext_iff, Prod.ext_iff] at e; exact e.2.2.symm
  subst e2 e3
  obtain ⟨s, hs, hm⟩ := (h2 (1 : Fin 3) (by decide) (fun _ _ => id) (by simp)).1 joinText_holds
  cases hs
  simp at hm

variable {K : Kernel α S Bx Sh} {mem : S → α → Prop} {on : Nat → α → Prop} {inBox : Bx → α → Prop}

theorem region_of {ts : List Tok} {surfaces : List Nat} {ext : Bx} {d : Seq} {shape : Option S} {lost : List S}
    (hs : ∀ v, v ∈ surfaces ↔ RBool.written ts v) (hocc : ∀ v, d.Occurs v ↔ RBool.written ts v) (hsem : ∀ σ b, Means σ ts b ↔ b = d.sem σ)
    (h : RightShape K mem on inBox d ext shape lost) :
    IsRegion K mem on inBox (fun x => Means (fun k => K.side k x) ts true) surfaces ext d shape lost := by
  intro x hx hn hl
  obtain ⟨h1, h2⟩ := h x hx (fun v hv => hn v ((hs v).2 ((hocc v).1 hv))) hl
  have e : In K d x ↔ Means (fun k => K.side k x) ts true := by
    rw [hsem]
    exact eq_comm
  exact ⟨fun hr => h1 (e.2 hr), fun hb hi => e.1 (h2 hb hi)⟩

/-- **C127** for texts without parentheses: unions of intersections, what GEOUNED writes for most cells. Missing: texts with parentheses. -/
theorem C127_flat_partial (hR : Right K mem on inBox) (ts : List Tok) (surfaces : List Nat) (ext : Bx) (hr : Readable ts)
    (hs : ∀ v, v ∈ surfaces ↔ RBool.written ts v) (hp : Tok.lp ∉ ts) (f : Nat) (hf : ts.length + 3 ≤ f) :
    ∃ d shape lost, buildFrom K (f + 1) (defOfText f ts) surfaces ext = .ok (d, shape, lost) ∧
      IsRegion K mem on inBox (fun x => Means (fun k => K.side k x) ts true) surfaces ext d shape lost := by
  obtain ⟨d, h1, h2, h3, h4, h5⟩ := def_spec hr hf
  have hfl : Flat d := by
    unfold defOfText at h1
    rw [clean_plain hr hp] at h1
    exact RBool.setDef_flat hp h1
  obtain ⟨shape, lost, g1, g2⟩ := C77_flat_partial hR d surfaces ext h2 (fun v => by rw [hs, h3]) hfl (f + 1) (by omega)
  exact ⟨d, shape, lost, by simp only [buildFrom, h1, g1], region_of hs h3 h5 g2⟩

/-- **C127** for all texts whose definition is `Tidy` and starts with bounded parts. Missing: texts in which, inside an intersection, a
surface of a nested union occurs again in a later element (`C127_violated`), or which start with an unbounded part (`C77_reversed_violated`). -/
theorem C127_nested_partial (hR : Right K mem on inBox) (ts : List Tok) (surfaces : List Nat) (ext : Bx) (hr : Readable ts)
    (hs : ∀ v, v ∈ surfaces ↔ RBool.written ts v) (f : Nat) (hf : ts.length + 3 ≤ f)
    (ht : ∀ d, defOfText f ts = .ok d → Tidy d ∧ StartsBounded K d) :
    ∃ d shape lost, buildFrom K (f + 1) (defOfText f ts) surfaces ext = .ok (d, shape, lost) ∧
      IsRegion K mem on inBox (fun x => Means (fun k => K.side k x) ts true) surfaces ext d shape lost := by
  obtain ⟨d, h1, h2, h3, h4, h5⟩ := def_spec hr hf
  obtain ⟨t1, t2⟩ := ht d h1
  obtain ⟨shape, lost, g1, g2⟩ := C77_nested_partial hR d surfaces ext h2 (fun v => by rw [hs, h3]) t1 t2 (f + 1) (by omega)
  exact ⟨d, shape, lost, by simp only [buildFrom, h1, g1], region_of hs h3 h5 g2⟩

/-! ### cards with `#` -/

theorem noHash_emb : ∀ us : List Tok, noHash (us.map emb) = some us
  | [] => rfl
  | t :: us => by cases t <;> simp [noHash, emb, noHash_emb us]

theorem removeText_mono {a b : Nat → M (List HTok)} (h : ∀ n us, a n = .ok us → b n = .ok us) : ∀ (ts us : List HTok), removeText a ts = .ok us → removeText b ts = .ok us
  | [], us, hu => hu
  | .hash :: ts, us, hu => by
    simp only [removeText, bind_ok] at hu ⊢
    obtain ⟨r, hr, hu⟩ := hu
    refine ⟨r, removeText_mono h ts r hr, ?_⟩
    split at hu
    · next e => exact hu
    · next n _ e =>
      split at hu
      · next hn => rw [if_pos hn]; exact hu
      · next hn =>
        rw [if_neg hn]
        simp only [bind_ok] at hu ⊢
        obtain ⟨d, hd, hu⟩ := hu
        exact ⟨d, h _ d hd, hu⟩
    · exact hu
  | .lp :: ts, us, hu | .rp :: ts, us, hu | .colon :: ts, us, hu | .blank :: ts, us, hu | .num _ :: ts, us, hu | .amp :: ts, us, hu => by
    simp only [removeText, bind_ok] at hu ⊢
    obtain ⟨r, hr, hu⟩ := hu
    exact ⟨r, removeText_mono h ts r hr, hu⟩

/-- **C127** for the cells of a deck whose cards use `#`: the complements are removed, the text cleaned, the definition built, and the solid is
the region of the cell (`cell x n`: point `x` is in cell `n`, as the cards of the cells `R` say). Missing: cards with `LIKE` or `TRCL`, and the
definitions excluded in `C127_nested_partial`. -/
theorem C127_hash_partial (hR : Right K mem on inBox) (deck : Nat → Option Card) (cell : α → Nat → Bool) (R : Nat → Prop) (ρ : Nat → Nat) [Inhabited α]
    (hdeck : ∀ n, R n → ∃ c, deck n = some c ∧ c.plain = true ∧ Spaced c.geom ∧ (∀ x, HMeans (fun k => K.side k x) (cell x) c.geom (cell x n)) ∧
      ∀ m, mentions c.geom m → R m ∧ ρ m < ρ n)
    (n : Nat) (hn : R n) (ext : Bx) :
    ∃ F, ∀ f, F ≤ f → ∃ d0, defOfCard f deck n = .ok d0 ∧ ∀ surfaces : List Nat, (∀ v, v ∈ surfaces ↔ d0.Occurs v) → (Flat d0 ∨ Tidy d0 ∧ StartsBounded K d0) →
      ∃ d shape lost, buildFrom K (f + 1) (defOfCard f deck n) surfaces ext = .ok (d, shape, lost) ∧
        IsRegion K mem on inBox (fun x => cell x n = true) surfaces ext d shape lost := by
  have key : ∀ x f, ρ n < f → ∃ us, removeHash deck f n = .ok (us.map emb) ∧ Means (fun k => K.side k x) us (cell x n) := by
    intro x f hf
    obtain ⟨us, h1, h2, -⟩ := C64_remove_hash_partial (fun k => K.side k x) deck (cell x) R ρ (fun m hm => by
      obtain ⟨c, e1, e2, e3, e4, e5⟩ := hdeck m hm
      exact ⟨c, e1, e2, e3, e4 x, e5⟩) n hn f hf
    exact ⟨us, h1, h2⟩
  -- the text does not depend on the depth allowed
  have mono : ∀ f c us, remove deck f c = .ok us → remove deck (f + 1) c = .ok us := by
    intro f
    induction f with
    | zero => intro c us h; simp [remove] at h
    | succ f ih =>
      intro c us h
      rw [remove] at h ⊢
      split at h
      · next hc => rw [if_pos hc]; exact h
      · next hc =>
        rw [if_neg hc]
        refine removeText_mono ?_ _ _ h
        intro m vs hm
        split at hm
        · cases hm
        · exact ih _ vs hm
  obtain ⟨us, hus, -⟩ := key default (ρ n + 1) (by omega)
  have hall : ∀ f, ρ n + 1 ≤ f → removeHash deck f n = .ok (us.map emb) := by
    intro f hf
    obtain ⟨c, hc, -⟩ := hdeck n hn
    unfold removeHash at hus ⊢
    rw [hc] at hus ⊢
    dsimp only at hus ⊢
    induction f with
    | zero => omega
    | succ f ih =>
      by_cases he : ρ n + 1 = f + 1
      · rw [← he]; exact hus
      · exact mono f c _ (ih (by omega))
  have hmeans : ∀ x, Means (fun k => K.side k x) us (cell x n) := by
    intro x
    obtain ⟨vs, h1, h2⟩ := key x (ρ n + 1) (by omega)
    rw [hus] at h1
    cases map_emb_inj (Except.ok.inj h1)
    exact h2
  refine ⟨max (ρ n + 1) (us.length + 3), fun f hf => ?_⟩
  obtain ⟨d, h1, h2, h3, h4, h5⟩ := def_spec ⟨_, _, hmeans default⟩ (f := f) (by omega)
  have hd : defOfCard f deck n = .ok d := by
    simp only [defOfCard, hall f (by omega), noHash_emb, h1]
  refine ⟨d, hd, fun surfaces hs hc => ?_⟩
  have build : ∃ shape lost, buildCell K (f + 1) d surfaces ext = .ok (shape, lost) ∧ RightShape K mem on inBox d ext shape lost := by
    rcases hc with hc | ⟨t1, t2⟩
    · exact C77_flat_partial hR d surfaces ext h2 hs hc (f + 1) (by omega)
    · exact C77_nested_partial hR d surfaces ext h2 hs t1 t2 (f + 1) (by omega)
  obtain ⟨shape, lost, g1, g2⟩ := build
  refine ⟨d, shape, lost, by simp only [buildFrom, hd, g1], ?_⟩
  have := region_of (K := K) (fun v => by rw [hs, h3]) h3 h5 g2
  intro x hx ho hl
  obtain ⟨k1, k2⟩ := this x hx ho hl
  have e : Means (fun k => K.side k x) us true ↔ cell x n = true := by
    rw [h5, ← (h5 _ _).1 (hmeans x)]
    exact eq_comm
  exact ⟨fun hr => k1 (e.2 hr), fun hb hi => e.1 (k2 hb hi)⟩

/-! ### there and back: GEOUNED writes, GEOReverse builds -/

/-- **C127**, CAD to MCNP to CAD: write a model with GEOUNED, read the file with GEOReverse. For each cell of the model there is one card, in
order; and whatever way the region of that card is split into lines and blanks, if it has no parentheses then GEOReverse makes of it a solid
that is the region of the cell's definition in GEOUNED. Missing: regions with parentheses (for those `C127_nested_partial`), the surfaces (C104). -/
theorem C127_back_partial {V : Type} (F : CellText.Arith V) (hF : ∀ t, CellText.Number False t → ∃ v, F.flt t = some v) (fm : McnpFile.Fmt) (i : McnpFile.Input)
    (h : McnpFile.Good fm i) (hsg : McnpFile.Signs fm i) (r : Nat) (hr : 30 ≤ r) (he : i.sphere = none ∨ i.volSDEF = false ∨ i.volCARD = true)
    (hR : Right K mem on inBox) (ext : Bx) :
    ∃ k0, ∀ k, k0 ≤ k → ∃ (s : List Char) (cs : List Card.PyCard), McnpFile.writeInput fm r k i = .ok s ∧ Card.getCards s = .ok cs
      ∧ List.Forall₂ (fun c p => ∃ n q, CellText.readCell F (McnpFile.joinLines p.input) = .ok (n, q) ∧ n = c.label ∧
          ∃ us, Text.tokensOf (Wrap.wordsOf q.geom) = some us ∧
            ∀ ts, solid ts = us → Tok.lp ∉ ts → ∀ surfaces : List Nat, (∀ v, v ∈ surfaces ↔ RBool.written ts v) → ∀ f, ts.length + 3 ≤ f →
              ∃ d shape lost, buildFrom K (f + 1) (defOfText f ts) surfaces ext = .ok (d, shape, lost) ∧
                IsRegion K mem on inBox (fun x => c.definition.sem (fun k => K.side k x) = true) surfaces ext d shape lost)
          (i.cells.filter (fun c => c.real)) (cs.filter (fun p => p.ctype = 3)) := by
  obtain ⟨k0, hk⟩ := McnpFile.C103_cells F hF fm i h hsg r hr he
  refine ⟨k0, fun k hk' => ?_⟩
  obtain ⟨s, cs, h1, h2, h3⟩ := hk k hk'
  refine ⟨s, cs, h1, h2, List.Forall₂.imp ?_ h3⟩
  rintro c p ⟨n, q, hq, hc⟩
  obtain ⟨us, hu, -⟩ := (hc.region (fun _ => true) _).2 rfl
  refine ⟨n, q, hq, hc.key, us, hu, ?_⟩
  have hread : ∀ σ b, Reads σ .union us b ↔ b = c.definition.sem σ := by
    intro σ b
    rw [← hc.region σ b]
    constructor
    · exact fun hb => ⟨us, hu, hb⟩
    · rintro ⟨vs, e, hb⟩
      rw [hu] at e
      cases e
      exact hb
  intro ts hts hp surfaces hs f hf
  have hrd : ∀ σ b, Means σ ts b ↔ b = c.definition.sem σ := by
    intro σ b
    unfold Means
    rw [hts]
    exact hread σ b
  obtain ⟨d, shape, lost, g1, g2⟩ := C127_flat_partial (K := K) hR ts surfaces ext ⟨fun _ => true, _, (hrd _ _).2 rfl⟩ hs hp f hf
  refine ⟨d, shape, lost, g1, fun x hx ho hl => ?_⟩
  obtain ⟨k1, k2⟩ := g2 x hx ho hl
  have e : Means (fun k => K.side k x) ts true ↔ c.definition.sem (fun k => K.side k x) = true := by
    rw [hrd]
    exact eq_comm
  exact ⟨fun hr => k1 (e.2 hr), fun hb hi => e.1 (k2 hb hi)⟩

/-! ### the hypotheses are met -/

/-- `7:8 -9`, an unbounded cell -/
def openText : List Tok := [.num 7, .colon, .num 8, .blank, .num (-9)]

theorem openText_reads : Readable openText :=
  ⟨fun _ => true, _, .or (t := [.num 7]) (.one (.num 7 (by decide))) (.single (.and (t := [.num 8]) (.num 8 (by decide)) (.one (.num (-9) (by decide)))))⟩

example : ∃ d shape lost, buildFrom (tableK 3 revSide (some 0)) 9 (defOfText 8 openText) [7, 8, 9] joinBox = .ok (d, shape, lost) ∧
    IsRegion (tableK 3 revSide (some 0)) (fun s x => x ∈ s) (fun _ _ => False) (fun b x => x ∈ b)
      (fun x => Means (fun k => revSide k x) openText true) [7, 8, 9] joinBox d shape lost :=
  C127_flat_partial (tableK_right _ _ _) openText [7, 8, 9] joinBox openText_reads (by
    intro v
    unfold RBool.written openText
    simp
    omega) (by decide) 8 (by decide)

/-- `-1 (2 3:-2 4) (5:-6)`, a nested cell inside the sphere 1 -/
def nestText : List Tok := [.num (-1), .blank, .lp, .num 2, .blank, .num 3, .colon, .num (-2), .blank, .num 4, .rp, .blank, .lp, .num 5, .colon, .num (-6), .rp]

theorem nestText_reads : Readable nestText :=
  ⟨fun _ => true, _, .single (.and (t := [.num (-1)]) (u := [.lp, .num 2, .num 3, .colon, .num (-2), .num 4, .rp, .lp, .num 5, .colon, .num (-6), .rp]) (.num (-1) (by decide))
    (.and (t := [.lp, .num 2, .num 3, .colon, .num (-2), .num 4, .rp]) (u := [.lp, .num 5, .colon, .num (-6), .rp])
      (.paren (t := [.num 2, .num 3, .colon, .num (-2), .num 4]) (.or (t := [.num 2, .num 3]) (.and (t := [.num 2]) (.num 2 (by decide)) (.one (.num 3 (by decide))))
        (.single (.and (t := [.num (-2)]) (.num (-2) (by decide)) (.one (.num 4 (by decide)))))))
      (.one (.paren (t := [.num 5, .colon, .num (-6)]) (.or (t := [.num 5]) (.one (.num 5 (by decide))) (.single (.one (.num (-6) (by decide)))))))))⟩

/-- the definition read from it -/
def nestDef : Seq := .lst .and 2 [.lst .and 0 [.int (-1)], .lst .or 1 [.lst .and 0 [.int 2, .int 3], .lst .and 0 [.int (-2), .int 4]], .lst .or 0 [.int 5, .int (-6)]]

theorem nestText_def : defOfText 20 nestText = .ok nestDef := rfl

/-- the same region bounds as those of `exDef` -/
theorem nest_bounded (g : List Int) (h1 : (-1 : Int) ∈ g) : Bounded (tableK 4 exSide (some 0)) (.lst .and 0 (g.map .int)) := by
  have h2 : Seq.sem (fun k => exSide k 0) (.lst .and 0 (g.map .int)) = false := by
    simp only [Seq.sem]
    induction g with
    | nil => simp at h1
    | cons n g ih =>
      simp only [List.map_cons, Seq.semAll]
      rcases List.mem_cons.1 h1 with h | h
      · subst h; rfl
      · rw [ih h]; simp
  intro out e
  simp [tableK, h2]

example : ∃ d shape lost, buildFrom (tableK 4 exSide (some 0)) 21 (defOfText 20 nestText) [1, 2, 3, 4, 5, 6] [0, 1, 2, 3] = .ok (d, shape, lost) ∧
    IsRegion (tableK 4 exSide (some 0)) (fun s x => x ∈ s) (fun _ _ => False) (fun b x => x ∈ b)
      (fun x => Means (fun k => exSide k x) nestText true) [1, 2, 3, 4, 5, 6] [0, 1, 2, 3] d shape lost :=
  C127_nested_partial (tableK_right _ _ _) nestText [1, 2, 3, 4, 5, 6] [0, 1, 2, 3] nestText_reads (by
    intro v
    unfold RBool.written nestText
    simp
    omega) 20 (by decide) (by
    intro d hd
    have e : nestDef = d := Except.ok.inj (nestText_def.symm.trans hd)
    subst e
    refine ⟨?_, ?_, fun _ => ⟨fun g hg => nest_bounded g ((hg (-1)).2 ⟨.lst .and 0 [.int (-1)], by simp, .inr ⟨_, rfl⟩⟩), .inl ⟨.lst .and 0 [.int (-1)], by simp, -1, .inr ⟨_, rfl⟩⟩⟩⟩
    · simp only [nestDef, Tidy, TidyL, Apart]
      simp [List.pairwise_cons, Joins, JoinsL, Seq.Occurs, Seq.OccursL]
      intro _ v hv
      omega
    · intro out e
      rfl)

/-- a deck: cell 1 is `-1`, cell 2 is `#1 2` -/
def hashDeck : Nat → Option Card
  | 1 => some ⟨[.num (-1)], true⟩
  | 2 => some ⟨[.hash, .num 1, .blank, .num 2], true⟩
  | _ => none

def hashSide (k : Nat) (x : Fin 3) : Bool := match x, k with
  | 0, 1 => true | 0, 2 => true | 1, 1 => true | _, _ => false

def hashCell (x : Fin 3) (n : Nat) : Bool := if n = 1 then !(hashSide 1 x) else hashSide 1 x && hashSide 2 x

theorem hashDeck_ok : ∀ n, (n = 1 ∨ n = 2) → ∃ c, hashDeck n = some c ∧ c.plain = true ∧ Spaced c.geom ∧
    (∀ x, HMeans (fun k => hashSide k x) (hashCell x) c.geom (hashCell x n)) ∧ ∀ m, mentions c.geom m → (m = 1 ∨ m = 2) ∧ m < n := by
  rintro n (rfl | rfl)
  · refine ⟨_, rfl, rfl, by simp [Spaced], fun x => ?_, ?_⟩
    · exact .single (.one (.num (-1) (by decide)))
    · rintro m ⟨a, b, h⟩
      have := congrArg (HTok.hash ∈ ·) h
      simp [hsolid] at this
  · refine ⟨_, rfl, rfl, by simp [Spaced, isNumH], fun x => ?_, ?_⟩
    · have h := HReads.and (σ := fun k => hashSide k x) (cell := hashCell x) (.hashCell 1) (.one (.num 2 (by decide)))
      have e : hashCell x 2 = (!(hashCell x 1) && lit (fun k => hashSide k x) 2) := by
        simp [hashCell, lit]
      unfold HMeans
      rw [e]
      exact .single h
    · rintro m ⟨a, b, h⟩
      have h' : [HTok.hash, .num 1, .num 2] = a ++ .hash :: .num m :: b := h
      rcases a with _ | ⟨_, _ | ⟨_, _ | ⟨_, a⟩⟩⟩ <;> simp at h'
      exact ⟨by omega, by omega⟩

/-- the region of cell 2 is outside cell 1 -/
example : ∃ F, ∀ f, F ≤ f → ∃ d0, defOfCard f hashDeck 2 = .ok d0 ∧ ∀ surfaces : List Nat, (∀ v, v ∈ surfaces ↔ d0.Occurs v) →
    (Flat d0 ∨ Tidy d0 ∧ StartsBounded (tableK 3 hashSide none) d0) →
    ∃ d shape lost, buildFrom (tableK 3 hashSide none) (f + 1) (defOfCard f hashDeck 2) surfaces joinBox = .ok (d, shape, lost) ∧
      IsRegion (tableK 3 hashSide none) (fun s x => x ∈ s) (fun _ _ => False) (fun b x => x ∈ b) (fun x => hashCell x 2 = true) surfaces joinBox d shape lost :=
  C127_hash_partial (tableK_right _ _ _) hashDeck hashCell (fun n => n = 1 ∨ n = 2) id hashDeck_ok 2 (.inr rfl) joinBox

/-- and its definition is flat -/
example : defOfCard 30 hashDeck 2 = .ok (.lst .and 0 [.int 1, .int 2]) := rfl

example (ext : List (Fin 3)) := C127_back_partial (K := tableK 3 revSide (some 0)) CellText.textArith (fun t _ => ⟨t, rfl⟩) McnpFile.fmt1 _ McnpFile.model1_good McnpFile.model1_signs 1000
  (by omega) (Or.inr (Or.inr rfl)) (tableK_right _ _ _) ext

end Geouned.Back
