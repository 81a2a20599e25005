import Verif.Rev.SolidLemmas6
/-!
# C77: the solid that GEOReverse builds for a cell is the region of its definition
-/
namespace Geouned.Rev.Solid

/-- **C77** (full statement). With a CAD kernel that does what it should, `build_BoundBox` and `buildShape` succeed for every cell
definition (calls can be nested one deeper than the definition), and a point of the external box, on no surface of the definition and in no solid thrown away for being too small, is in
the shape exactly if it is in the region of the definition. -/
def C77_statement : Prop :=
  ∀ (α S Bx Sh : Type) (K : Kernel α S Bx Sh) (mem : S → α → Prop) (on : Nat → α → Prop) (inBox : Bx → α → Prop), Right K mem on inBox →
    ∀ (d : Seq) (surfaces : List Nat) (ext : Bx), Plain d → (∀ v, v ∈ surfaces ↔ d.Occurs v) →
    ∀ f, d.depth + 1 ≤ f → ∃ shape lost, buildCell K f d surfaces ext = .ok (shape, lost) ∧ RightShape K mem on inBox d ext shape lost

variable {α S Bx Sh : Type} {K : Kernel α S Bx Sh} {mem : S → α → Prop} {on : Nat → α → Prop} {inBox : Bx → α → Prop}

/-- **C77**, for sequences of surface numbers and unions of them: every kind of cell, bounded or not. Missing: nested definitions. -/
theorem C77_flat_partial (hR : Right K mem on inBox) (d : Seq) (surfaces : List Nat) (ext : Bx) (hd : Plain d)
    (hs : ∀ v, v ∈ surfaces ↔ d.Occurs v) (hf : Flat d) (f : Nat) (h2 : 2 ≤ f) :
    ∃ shape lost, buildCell K f d surfaces ext = .ok (shape, lost) ∧ RightShape K mem on inBox d ext shape lost := by
  rcases buildCell_eq (K := K) f d surfaces ext with ⟨c, h1, hcd, hcs, hcp, hcb, hce⟩ | ⟨h1, h3, h4⟩
  · obtain ⟨f, rfl⟩ := Nat.exists_eq_add_of_le' h2
    obtain ⟨qs, l, e1, e2, e3⟩ := flat_ok (c := c) hR f (hcd ▸ good_plain hd) (hcd ▸ hf) (by rw [hcd, hcs]; exact hs) (by
      intro m hm
      rw [hcb] at hm
      simp only [Option.some.injEq] at hm
      exact hm ▸ boxSays_root hR hcd hcp hce)
    obtain ⟨o, h5, h6⟩ := finish_in hR qs l
    refine ⟨o, l, by rw [h1, e1, h5], fun x hx hn hl => ⟨fun hi => ?_, fun _ hsh => ?_⟩⟩
    · rw [h6]
      refine e3 x ((work_box hR hce hx).1 hi) ?_ (fun ⟨s, hs, hm⟩ => hl s hs hm) (hcd ▸ hi) ((area_root (by rw [hcp, hcd]) x).2 (hcd ▸ hi))
      intro v hv
      rw [hcs] at hv
      exact hn v ((hs v).1 hv)
    · rw [h6] at hsh
      exact hcd ▸ e2 x hsh
  · exact ⟨none, [], h4, no_shape hR h1 h3⟩

/-- **C77**, for nested definitions. Missing: definitions in which, inside an intersection, a surface of a nested union occurs again
in a later element (see `C77_join_violated`), or which start with an unbounded part (see `C77_reversed_violated`). -/
theorem C77_nested_partial (hR : Right K mem on inBox) (d : Seq) (surfaces : List Nat) (ext : Bx) (hd : Plain d)
    (hs : ∀ v, v ∈ surfaces ↔ d.Occurs v) (ht : Tidy d) (hb : StartsBounded K d) (f : Nat) (hf : d.depth + 1 ≤ f) :
    ∃ shape lost, buildCell K f d surfaces ext = .ok (shape, lost) ∧ RightShape K mem on inBox d ext shape lost := by
  rcases buildCell_eq (K := K) f d surfaces ext with ⟨c, h1, hcd, hcs, hcp, hcb, hce⟩ | ⟨h1, h3, h4⟩
  · have hB : Bounded K d := by
      obtain ⟨op, l, es, rfl⟩ := hd.1
      exact hb.1
    obtain ⟨⟨qs, l⟩, e1, e2⟩ := buildDepth_ok (S := S) hR f d (.inr hf) c none hcd
      ⟨hcd ▸ good_plain hd, hcd ▸ ht, by rw [hcd, hcs]; exact hs, fun _ => ⟨hcd ▸ hb, fun _ => by rw [hcp]; exact hB, fun m hm => by
        rw [hcb] at hm
        simp only [Option.some.injEq] at hm
        subst hm
        exact ⟨hB _ _, boxSays_root hR hcd hcp hce⟩⟩, by simp⟩
    obtain ⟨o, h5, h6⟩ := finish_in hR qs l
    have hA : ∀ x, Area K c x ↔ In K d x := fun x => by rw [area_root (by rw [hcp, hcd]), hcd]
    refine ⟨o, l, by rw [h1, e1, h5], fun x hx hn hl => ⟨fun hi => ?_, fun hc hsh => ?_⟩⟩
    · rw [h6]
      refine e2.complete x ((work_box hR hce hx).1 hi) ?_ (fun ⟨s, hs, hm⟩ => hl s hs hm) (by simp [inBase]) (hcd ▸ hi) ((hA x).2 hi)
      intro v hv
      rw [hcs] at hv
      exact hn v ((hs v).1 hv)
    · rw [h6] at hsh
      rcases e2.sound x ((work_box hR hce hx).2 hc) hsh with h | h
      · exact hcd ▸ h
      · exact (hA x).1 h
  · exact ⟨none, [], h4, no_shape hR h1 h3⟩

/-! ### where it fails -/

/-- the points of the first witness and their sides of the surfaces 1 to 4 -/
def joinSide (k : Nat) (x : Fin 3) : Bool :=
  match x, k with
  | 0, 1 => true | 0, 2 => true | 0, 3 => false | 0, 4 => true
  | 1, 1 => false | 1, 2 => false | 1, 3 => true | 1, 4 => false
  | _, _ => false

/-- `(1 2 : -1 3) (-2 : 4)` -/
def joinDef : Seq := .lst .and 2
  [.lst .or 1 [.lst .and 0 [.int 1, .int 2], .lst .and 0 [.int (-1), .int 3]], .lst .or 0 [.int (-2), .int 4]]

/-- all points -/
def joinBox : List (Fin 3) := [0, 1, 2]

theorem join_run : buildCell (tableK 3 joinSide none) 4 joinDef [1, 2, 3, 4] joinBox = .ok (some [0], []) := by
  have h : (match buildCell (tableK 3 joinSide none) 4 joinDef [1, 2, 3, 4] joinBox with
      | .ok (some [0], []) => true
      | _ => false) = true := by decide +kernel
  split at h
  · next heq => exact heq
  · simp at h

theorem plain_join : Plain joinDef := by
  refine ⟨⟨_, _, _, rfl⟩, ?_, ?_, ?_⟩
  · simp [joinDef, Seq.WF, Seq.WFL]
  · simp [joinDef, Seq.NoBool, Seq.NoBoolL]
  · simp [joinDef, Filled, FilledL]

/-- **C77** fails for a bounded cell `(1 2 : -1 3) (-2 : 4)`: `joinBase` keeps, for the union of the two parts, that the first one is
on the positive side of surface 2; the second part, where this is wrong, is then dropped although it is in the cell. -/
theorem C77_join_violated : ∃ (n : Nat) (K : Kernel (Fin n) (List (Fin n)) (List (Fin n)) Nat) (d : Seq) (surfaces : List Nat) (ext : List (Fin n)),
    Right K (fun s x => x ∈ s) (fun _ _ => False) (fun b x => x ∈ b) ∧ Plain d ∧ (∀ v, v ∈ surfaces ↔ d.Occurs v) ∧ (∀ e, Bounded K e) ∧
    ∃ f shape, d.depth + 1 ≤ f ∧ buildCell K f d surfaces ext = .ok (shape, []) ∧ ∃ x, x ∈ ext ∧ In K d x ∧ ¬ InShape (fun s x => x ∈ s) shape x := by
  refine ⟨3, tableK 3 joinSide none, joinDef, [1, 2, 3, 4], joinBox, tableK_right _ _ _, plain_join, ?_, fun _ _ _ => rfl, ?_⟩
  · intro v
    simp only [joinDef, Seq.Occurs, Seq.OccursL]
    simp
    omega
  · refine ⟨4, _, by decide, join_run, 1, by decide, rfl, ?_⟩
    simp [InShape]

/-- the points of the second witness: 0 is far away -/
def revSide (k : Nat) (x : Fin 3) : Bool :=
  match x, k with
  | 0, 7 => true | 0, 1 => true | 0, 8 => true
  | 1, 1 => true | 1, 9 => true
  | _, _ => false

/-- `(7 : -1) (8 : 9)` -/
def revDef : Seq := .lst .and 1 [.lst .or 0 [.int 7, .int (-1)], .lst .or 0 [.int 8, .int 9]]

theorem rev_run : buildCell (tableK 3 revSide (some 0)) 4 revDef [7, 1, 8, 9] joinBox = .ok (some [0, 0, 1], []) := by
  rfl

theorem plain_rev : Plain revDef := by
  refine ⟨⟨_, _, _, rfl⟩, ?_, ?_, ?_⟩
  · simp [revDef, Seq.WF, Seq.WFL]
  · simp [revDef, Seq.NoBool, Seq.NoBoolL]
  · simp [revDef, Filled, FilledL]

theorem tidy_rev : Tidy revDef := by
  simp [revDef, Tidy, TidyL, Joins]

/-- **C77** fails for an unbounded cell `(7 : -1) (8 : 9)`: `filterparts` adds the whole region of `(8 : 9)` to the parts, also the
points that are not in `(7 : -1)`. -/
theorem C77_reversed_violated : ∃ (n : Nat) (K : Kernel (Fin n) (List (Fin n)) (List (Fin n)) Nat) (d : Seq) (surfaces : List Nat) (ext : List (Fin n)),
    Right K (fun s x => x ∈ s) (fun _ _ => False) (fun b x => x ∈ b) ∧ Plain d ∧ (∀ v, v ∈ surfaces ↔ d.Occurs v) ∧ Tidy d ∧
    ∃ f shape, d.depth + 1 ≤ f ∧ buildCell K f d surfaces ext = .ok (shape, []) ∧
      ∃ x, x ∈ ext ∧ InCellBox K (fun b x => x ∈ b) d ext x ∧ ¬ In K d x ∧ InShape (fun s x => x ∈ s) shape x := by
  refine ⟨3, tableK 3 revSide (some 0), revDef, [7, 1, 8, 9], joinBox, tableK_right _ _ _, plain_rev, ?_, tidy_rev, ?_⟩
  · intro v
    simp only [revDef, Seq.Occurs, Seq.OccursL]
    simp
    omega
  · refine ⟨4, _, by decide, rev_run, 1, by decide, ?_, ?_, ?_⟩
    · intro h
      have h' : (Ori.rev) = .fwd := h
      simp at h'
    · intro h
      have h' : false = true := h
      simp at h'
    · simp [InShape]

/-- the full statement does not hold -/
theorem C77_violated : ¬ C77_statement := by
  intro h
  obtain ⟨n, K, d, ss, ext, h1, h2, h3, -, h4⟩ := C77_join_violated
  obtain ⟨f, shape, hf, hs, x, hx, hi, hn⟩ := h4
  obtain ⟨shape', lost, hs', hr⟩ := h _ _ _ _ K _ _ _ h1 d ss ext h2 h3 f hf
  rw [hs] at hs'
  simp only [Except.ok.injEq, Prod.mk.injEq] at hs'
  obtain ⟨rfl, rfl⟩ := hs'
  exact hn ((hr x hx (fun _ _ => id) (by simp)).1 hi)

/-! ### the hypotheses are met -/

/-- `-1 (2 3 : -2 4) (5 : -6)`, a nested cell inside the sphere 1 -/
def exDef : Seq := .lst .and 2
  [.int (-1), .lst .or 1 [.lst .and 0 [.int 2, .int 3], .lst .and 0 [.int (-2), .int 4]], .lst .or 0 [.int 5, .int (-6)]]

/-- point 0 is outside the sphere 1, the others are inside -/
def exSide (k : Nat) (x : Fin 4) : Bool :=
  match x, k with
  | 0, _ => true
  | 1, 2 => true | 1, 3 => true | 1, 5 => true
  | 2, 4 => true
  | 3, 2 => true
  | _, _ => false

theorem ex_bounded (g : List Int) (hg : ∀ n, n ∈ g ↔ ∃ e ∈ ([.int (-1), .lst .or 1 [.lst .and 0 [.int 2, .int 3], .lst .and 0 [.int (-2), .int 4]],
    .lst .or 0 [.int 5, .int (-6)]] : List Seq), Single e n) : Bounded (tableK 4 exSide (some 0)) (.lst .and 0 (g.map .int)) := by
  have h1 : (-1 : Int) ∈ g := (hg (-1)).2 ⟨.int (-1), by simp, .inl rfl⟩
  have h2 : Seq.sem (fun k => exSide k 0) (.lst .and 0 (g.map .int)) = false := by
    simp only [Seq.sem]
    clear hg
    induction g with
    | nil => simp at h1
    | cons n g ih =>
      simp only [List.map_cons, Seq.semAll]
      rcases List.mem_cons.1 h1 with h | h
      · subst h; rfl
      · rw [ih h]; simp
  intro out e
  simp [tableK, h2]

example : ∃ shape lost, buildCell (tableK 4 exSide (some 0)) 4 exDef [1, 2, 3, 4, 5, 6] [0, 1, 2, 3] = .ok (shape, lost) ∧
    RightShape (tableK 4 exSide (some 0)) (fun s x => x ∈ s) (fun _ _ => False) (fun b x => x ∈ b) exDef [0, 1, 2, 3] shape lost := by
  refine C77_nested_partial (tableK_right _ _ _) exDef [1, 2, 3, 4, 5, 6] [0, 1, 2, 3] ⟨⟨_, _, _, rfl⟩, ?_, ?_, ?_⟩ ?_ ?_ ⟨?_, fun _ => ⟨ex_bounded, ?_⟩⟩ 4 ?_
  · simp [exDef, Seq.WF, Seq.WFL]
  · simp [exDef, Seq.NoBool, Seq.NoBoolL]
  · simp [exDef, Filled, FilledL]
  · intro v
    simp only [exDef, Seq.Occurs, Seq.OccursL]
    simp
    omega
  · simp only [exDef, Tidy, TidyL, Apart]
    simp [List.pairwise_cons]
    intro _ v hv
    omega
  · intro out e
    rfl
  · exact .inl ⟨.int (-1), by simp, -1, .inl rfl⟩
  · decide

example : buildCell (tableK 4 exSide (some 0)) 4 exDef [1, 2, 3, 4, 5, 6] [0, 1, 2, 3] = .ok (some [1, 2], []) := rfl

/-- `(7 : -1) : 8 -9`, an unbounded union -/
example : ∃ shape lost, buildCell (tableK 3 revSide (some 0)) 2 (.lst .or 1 [.int 7, .lst .and 0 [.int 8, .int (-9)]]) [7, 8, 9] joinBox = .ok (shape, lost) ∧
    RightShape (tableK 3 revSide (some 0)) (fun s x => x ∈ s) (fun _ _ => False) (fun b x => x ∈ b)
      (.lst .or 1 [.int 7, .lst .and 0 [.int 8, .int (-9)]]) joinBox shape lost := by
  refine C77_flat_partial (tableK_right _ _ _) _ [7, 8, 9] joinBox ⟨⟨_, _, _, rfl⟩, ?_, ?_, ?_⟩ ?_ ⟨_, _, _, rfl, .inr ⟨rfl, ?_⟩⟩ 2 (Nat.le_refl _)
  · simp [Seq.WF, Seq.WFL]
  · simp [Seq.NoBool, Seq.NoBoolL]
  · simp [Filled, FilledL]
  · intro v
    simp only [Seq.Occurs, Seq.OccursL]
    simp
    omega
  · simp

end Geouned.Rev.Solid
