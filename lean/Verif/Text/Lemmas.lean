import Verif.Text.Model
import Verif.Bool.Lemmas4
/-! Lemmas for the text of cell definitions: grammar of masked texts -/
namespace Geouned.Text

/-- the value grammar of masked texts; removed parentheses are remembered -/
inductive G (σ : Side) : Rank → List Item → Bool → Prop where
  | num (n : Int) : n ≠ 0 → G σ .factor [.tok (.num n)] (lit σ n)
  | block {ts b} : G σ .union (ts.map .tok) b → G σ .factor [.block (.lp :: (ts ++ [.rp]))] b
  | paren {w b} : G σ .union w b → G σ .factor (.tok .lp :: (w ++ [.tok .rp])) b
  | one {w b} : G σ .factor w b → G σ .inter w b
  | single {w b} : G σ .inter w b → G σ .union w b
  | and {u v b c} : G σ .inter u b → G σ .inter v c → G σ .inter (u ++ v) (b && c)
  | or {u v b c} : G σ .union u b → G σ .union v c → G σ .union (u ++ .tok .colon :: v) (b || c)
  | blankL {r w b} : G σ r w b → G σ r (.tok .blank :: w) b
  | blankR {r w b} : G σ r w b → G σ r (w ++ [.tok .blank]) b
  | goneI {w b} : G σ .inter w b → G σ .inter (.gone .lp :: (w ++ [.gone .rp])) b
  | goneU {w b} : G σ .union w b → G σ .union (.gone .lp :: (w ++ [.gone .rp])) b

/-- at least an intersection -/
def up : Rank → Rank
  | .factor => .inter
  | r => r

theorem G.up {σ r w b} (h : G σ r w b) : G σ (up r) w b := by
  cases r
  · exact .one h
  · exact h
  · exact h

theorem G.toUnion {σ r w b} (h : G σ r w b) : G σ .union w b := by
  cases r
  · exact .single (.one h)
  · exact .single h
  · exact h

/-! ### balance -/

def lpc (w : List Item) : Nat := w.count (.tok .lp)
def rpc (w : List Item) : Nat := w.count (.tok .rp)

@[simp] theorem lpc_append (u v : List Item) : lpc (u ++ v) = lpc u + lpc v := by simp [lpc]
@[simp] theorem rpc_append (u v : List Item) : rpc (u ++ v) = rpc u + rpc v := by simp [rpc]
@[simp] theorem lpc_nil : lpc [] = 0 := rfl
@[simp] theorem rpc_nil : rpc [] = 0 := rfl
theorem lpc_cons (x : Item) (w : List Item) : lpc (x :: w) = (if x = .tok .lp then 1 else 0) + lpc w := by
  simp [lpc, List.count_cons]; omega
theorem rpc_cons (x : Item) (w : List Item) : rpc (x :: w) = (if x = .tok .rp then 1 else 0) + rpc w := by
  simp [rpc, List.count_cons]; omega

/-- every prefix has at least as many `(` as `)` -/
def Bal (w : List Item) : Prop := lpc w = rpc w ∧ ∀ u v, w = u ++ v → rpc u ≤ lpc u

theorem bal_single {x : Item} (h1 : x ≠ .tok .lp) (h2 : x ≠ .tok .rp) : Bal [x] := by
  refine ⟨by simp [lpc_cons, rpc_cons, h1, h2], fun u v h => ?_⟩
  have : rpc u + rpc v = 0 := by rw [← rpc_append, ← h]; simp [rpc_cons, h2]
  omega

theorem bal_append {u v : List Item} (hu : Bal u) (hv : Bal v) : Bal (u ++ v) := by
  refine ⟨by simp [hu.1, hv.1], fun a c h => ?_⟩
  rcases List.append_eq_append_iff.1 h with ⟨x, rfl, rfl⟩ | ⟨x, rfl, rfl⟩
  · have := hu.1
    have := hv.2 x c rfl
    simp
    omega
  · exact hu.2 a x rfl

theorem bal_paren {w : List Item} (hw : Bal w) : Bal (.tok .lp :: (w ++ [.tok .rp])) := by
  refine ⟨by simp [lpc_cons, rpc_cons, hw.1]; omega, fun a c h => ?_⟩
  cases a with
  | nil => simp
  | cons x a =>
    simp only [List.cons_append, List.cons.injEq] at h
    obtain ⟨rfl, h⟩ := h
    rcases List.append_eq_append_iff.1 h with ⟨y, rfl, h2⟩ | ⟨y, rfl, rfl⟩
    · have := hw.1
      cases y with
      | nil => simp [lpc_cons, rpc_cons, hw.1]
      | cons z y =>
        simp only [List.cons_append, List.cons.injEq] at h2
        obtain ⟨rfl, h2⟩ := h2
        have hy : y = [] := by
          cases y with
          | nil => rfl
          | cons _ _ => simp at h2
        subst hy
        simp [lpc_cons, rpc_cons, hw.1]
        omega
    · have := hw.2 a y rfl
      simp [lpc_cons, rpc_cons]
      omega

theorem G.bal {σ r w b} (h : G σ r w b) : Bal w := by
  induction h with
  | num n _ => exact bal_single (by simp) (by simp)
  | block _ _ => exact bal_single (by simp) (by simp)
  | paren _ ih => exact bal_paren ih
  | one _ ih => exact ih
  | single _ ih => exact ih
  | and _ _ ih1 ih2 => exact bal_append ih1 ih2
  | or _ _ ih1 ih2 => exact bal_append ih1 (bal_append (u := [.tok .colon]) (bal_single (by simp) (by simp)) ih2)
  | blankL _ ih => exact bal_append (u := [.tok .blank]) (bal_single (by simp) (by simp)) ih
  | blankR _ ih => exact bal_append ih (bal_single (by simp) (by simp))
  | goneI _ ih => exact bal_append (u := [.gone .lp]) (bal_single (by simp) (by simp)) (bal_append ih (bal_single (by simp) (by simp)))
  | goneU _ ih => exact bal_append (u := [.gone .lp]) (bal_single (by simp) (by simp)) (bal_append ih (bal_single (by simp) (by simp)))

/-- no parenthesis -/
def NoPar (w : List Item) : Prop := .tok .lp ∉ w ∧ .tok .rp ∉ w

theorem NoPar.counts {w : List Item} (h : NoPar w) : lpc w = 0 ∧ rpc w = 0 :=
  ⟨List.count_eq_zero.2 h.1, List.count_eq_zero.2 h.2⟩

/-- an inner parenthesis in a concatenation of balanced texts is in one of them -/
theorem inner_append {u v pre inner post : List Item} (hu : Bal u) (hn : NoPar inner)
    (h : u ++ v = pre ++ .tok .lp :: (inner ++ .tok .rp :: post)) :
    (∃ p, u = pre ++ .tok .lp :: (inner ++ .tok .rp :: p) ∧ post = p ++ v) ∨
    (∃ p, v = p ++ .tok .lp :: (inner ++ .tok .rp :: post) ∧ pre = u ++ p) := by
  rcases List.append_eq_append_iff.1 h with ⟨x, rfl, rfl⟩ | ⟨x, rfl, h1⟩
  · exact Or.inr ⟨x, rfl, rfl⟩
  · cases x with
    | nil =>
      refine Or.inr ⟨[], ?_, by simp⟩
      simpa using h1.symm
    | cons y x =>
      simp only [List.cons_append, List.cons.injEq] at h1
      obtain ⟨rfl, h1⟩ := h1
      rcases List.append_eq_append_iff.1 h1 with ⟨z, rfl, h2⟩ | ⟨z, rfl, h2⟩
      · cases z with
        | nil =>
          exfalso
          have a := hu.1
          have b := hu.2 pre (.tok .lp :: inner) (by simp)
          have c := hn.counts
          simp [lpc_cons, rpc_cons, c.1, c.2] at a
          omega
        | cons z0 z =>
          simp only [List.cons_append, List.cons.injEq] at h2
          obtain ⟨rfl, rfl⟩ := h2
          exact Or.inl ⟨z, by simp, rfl⟩
      · exfalso
        have a := hu.1
        have b := hu.2 pre (.tok .lp :: x) (by simp)
        have c := hn.counts
        simp only [lpc_append, rpc_append] at c
        simp [lpc_cons, rpc_cons] at a
        omega

/-- an inner parenthesis in a parenthesised text -/
theorem inner_paren {w pre inner post : List Item} (hw : Bal w) (hn : NoPar inner)
    (h : Item.tok .lp :: (w ++ [.tok .rp]) = pre ++ .tok .lp :: (inner ++ .tok .rp :: post)) :
    (pre = [] ∧ w = inner ∧ post = []) ∨
    (∃ p q, pre = .tok .lp :: p ∧ post = q ++ [.tok .rp] ∧ w = p ++ .tok .lp :: (inner ++ .tok .rp :: q)) := by
  cases pre with
  | nil =>
    simp only [List.nil_append, List.cons.injEq, true_and] at h
    rcases List.append_eq_append_iff.1 h with ⟨y, rfl, h2⟩ | ⟨y, rfl, h2⟩
    · cases y with
      | nil =>
        simp at h2
        subst h2
        exact Or.inl ⟨rfl, by simp, rfl⟩
      | cons y0 y =>
        exfalso
        simp only [List.cons_append, List.cons.injEq] at h2
        obtain ⟨rfl, h2⟩ := h2
        simp at h2
    · cases y with
      | nil =>
        simp at h2
        subst h2
        exact Or.inl ⟨rfl, by simp, rfl⟩
      | cons y0 y =>
        exfalso
        simp only [List.cons_append, List.cons.injEq] at h2
        obtain ⟨rfl, h2⟩ := h2
        have a := hw.2 (inner ++ [.tok .rp]) y (by simp)
        have c := hn.counts
        simp [lpc_cons, rpc_cons, c.1, c.2] at a
  | cons p0 p =>
    simp only [List.cons_append, List.cons.injEq] at h
    obtain ⟨rfl, h⟩ := h
    rcases inner_append (v := [.tok .rp]) hw hn h with ⟨q, h1, h2⟩ | ⟨q, h1, h2⟩
    · exact Or.inr ⟨p, q, rfl, h2, h1⟩
    · exfalso
      have := congrArg List.length h1
      simp at this
      omega

/-! ### neighbours of a parenthesis -/

/-- not a blank of the masked text -/
def vis : Item → Bool
  | .tok .blank => false
  | .gone _ => false
  | _ => true

def Vis (w : List Item) : Prop := ∃ x ∈ w, vis x = true

theorem Vis.append_left {u : List Item} (v : List Item) (h : Vis u) : Vis (u ++ v) := by
  obtain ⟨x, h1, h2⟩ := h; exact ⟨x, by simp [h1], h2⟩
theorem Vis.append_right (u : List Item) {v : List Item} (h : Vis v) : Vis (u ++ v) := by
  obtain ⟨x, h1, h2⟩ := h; exact ⟨x, by simp [h1], h2⟩
theorem vis_append {u v : List Item} : Vis (u ++ v) ↔ Vis u ∨ Vis v := by
  constructor
  · rintro ⟨x, h1, h2⟩
    rcases List.mem_append.1 h1 with h | h
    · exact Or.inl ⟨x, h, h2⟩
    · exact Or.inr ⟨x, h, h2⟩
  · rintro (h | h)
    · exact h.append_left v
    · exact h.append_right u
theorem vis_cons {x : Item} {v : List Item} : Vis (x :: v) ↔ vis x = true ∨ Vis v := by
  constructor
  · rintro ⟨y, h1, h2⟩
    rcases List.mem_cons.1 h1 with h | h
    · subst h; exact Or.inl h2
    · exact Or.inr ⟨y, h, h2⟩
  · rintro (h | ⟨y, h1, h2⟩)
    · exact ⟨x, by simp, h⟩
    · exact ⟨y, by simp [h1], h2⟩
theorem vis_reverse {u : List Item} : Vis u.reverse ↔ Vis u := by simp [Vis]
theorem not_vis_nil : ¬ Vis [] := by rintro ⟨x, h, _⟩; cases h

theorem rightOK_blind : ∀ (u v : List Item), ¬ Vis u → rightOK (u ++ v) = rightOK v
  | [], v, _ => rfl
  | x :: u, v, h => by
    rw [vis_cons, not_or] at h
    have ih := rightOK_blind u v h.2
    match x, h.1 with
    | .tok .blank, _ => simpa [rightOK] using ih
    | .gone _, _ => simpa [rightOK] using ih
    | .tok .lp, h => simp [vis] at h
    | .tok .rp, h => simp [vis] at h
    | .tok .colon, h => simp [vis] at h
    | .tok (.num _), h => simp [vis] at h
    | .block _, h => simp [vis] at h

theorem rightOK_vis : ∀ (u v : List Item), Vis u → rightOK (u ++ v) = rightOK u
  | [], v, h => absurd h not_vis_nil
  | x :: u, v, h => by
    rw [vis_cons] at h
    match x with
    | .tok .blank =>
      have := rightOK_vis u v (by simpa [vis] using h)
      simpa [rightOK] using this
    | .gone _ =>
      have := rightOK_vis u v (by simpa [vis] using h)
      simpa [rightOK] using this
    | .tok .lp => simp [rightOK]
    | .tok .rp => simp [rightOK]
    | .tok .colon => simp [rightOK]
    | .tok (.num _) => simp [rightOK]
    | .block _ => simp [rightOK]

theorem leftOK_blind : ∀ (u v : List Item), ¬ Vis u → leftOK (u ++ v) = leftOK v
  | [], v, _ => rfl
  | x :: u, v, h => by
    rw [vis_cons, not_or] at h
    have ih := leftOK_blind u v h.2
    match x, h.1 with
    | .tok .blank, _ => simpa [leftOK] using ih
    | .gone _, _ => simpa [leftOK] using ih
    | .tok .lp, h => simp [vis] at h
    | .tok .rp, h => simp [vis] at h
    | .tok .colon, h => simp [vis] at h
    | .tok (.num _), h => simp [vis] at h
    | .block _, h => simp [vis] at h

theorem leftOK_vis : ∀ (u v : List Item), Vis u → leftOK (u ++ v) = leftOK u
  | [], v, h => absurd h not_vis_nil
  | x :: u, v, h => by
    rw [vis_cons] at h
    match x with
    | .tok .blank =>
      have := leftOK_vis u v (by simpa [vis] using h)
      simpa [leftOK] using this
    | .gone _ =>
      have := leftOK_vis u v (by simpa [vis] using h)
      simpa [leftOK] using this
    | .tok .lp => simp [leftOK]
    | .tok .rp => simp [leftOK]
    | .tok .colon => simp [leftOK]
    | .tok (.num _) => simp [leftOK]
    | .block _ => simp [leftOK]

theorem leftOK_none {u : List Item} (h : ¬ Vis u) : leftOK u = true := by
  have := leftOK_blind u [] h
  simpa [leftOK] using this
theorem rightOK_none {u : List Item} (h : ¬ Vis u) : rightOK u = true := by
  have := rightOK_blind u [] h
  simpa [rightOK] using this

/-- the text on the left ends with a `(` or a `:`, or is blank -/
def LOK (u : List Item) : Prop := leftOK u.reverse = true
def ROK (u : List Item) : Prop := rightOK u = true

theorem LOK.of_append {u v : List Item} (h : LOK (u ++ v)) : LOK v := by
  unfold LOK at *
  by_cases hv : Vis v.reverse
  · rwa [List.reverse_append, leftOK_vis _ _ hv] at h
  · exact leftOK_none hv
theorem ROK.of_append {u v : List Item} (h : ROK (u ++ v)) : ROK u := by
  unfold ROK at *
  by_cases hv : Vis u
  · rwa [rightOK_vis _ _ hv] at h
  · exact rightOK_none hv
theorem LOK.append {u v : List Item} (hu : LOK u) (hv : LOK v) : LOK (u ++ v) := by
  unfold LOK at *
  rw [List.reverse_append]
  by_cases h : Vis v.reverse
  · rwa [leftOK_vis _ _ h]
  · rwa [leftOK_blind _ _ h]
theorem ROK.append {u v : List Item} (hu : ROK u) (hv : ROK v) : ROK (u ++ v) := by
  unfold ROK at *
  by_cases h : Vis u
  · rwa [rightOK_vis _ _ h]
  · rwa [rightOK_blind _ _ h]
theorem LOK.vis_of_append {u v : List Item} (h : LOK (u ++ v)) (hu : ¬ LOK u) : Vis v := by
  refine Classical.byContradiction fun hv => ?_
  apply hu
  unfold LOK at *
  rwa [List.reverse_append, leftOK_blind _ _ (by rwa [vis_reverse])] at h
theorem ROK.vis_of_append {u v : List Item} (h : ROK (u ++ v)) (hv : ¬ ROK v) : Vis u := by
  refine Classical.byContradiction fun hu => ?_
  apply hv
  unfold ROK at *
  rwa [rightOK_blind _ _ hu] at h

/-- a readable text starts with a number, a block or a `(`, and ends with a number, a block or a `)` -/
theorem G.ends {σ r w b} (h : G σ r w b) : Vis w ∧ ¬ ROK w ∧ ¬ LOK w := by
  have hb : ∀ {u : List Item} (v : List Item), Vis u → ¬ ROK u → ¬ ROK (u ++ v) := by
    intro u v h1 h2 h3
    exact h2 h3.of_append
  have ha : ∀ (u : List Item) {v : List Item}, Vis v → ¬ LOK v → ¬ LOK (u ++ v) := by
    intro u v h1 h2 h3
    exact h2 h3.of_append
  have hc : ∀ (x : Item) {w : List Item}, vis x = false → ¬ ROK w → ¬ ROK (x :: w) := by
    intro x w h1 h2 h3
    have := h3.vis_of_append (u := [x]) h2
    rw [vis_cons, h1] at this
    rcases this with h | h
    · cases h
    · exact not_vis_nil h
  have hd : ∀ (x : Item) {w : List Item}, vis x = false → ¬ LOK w → ¬ LOK (w ++ [x]) := by
    intro x w h1 h2 h3
    have := h3.vis_of_append (v := [x]) h2
    rw [vis_cons, h1] at this
    rcases this with h | h
    · cases h
    · exact not_vis_nil h
  induction h with
  | num n _ => exact ⟨⟨_, List.mem_cons_self, rfl⟩, by simp [ROK, rightOK], by simp [LOK, leftOK]⟩
  | block _ _ => exact ⟨⟨_, List.mem_cons_self, rfl⟩, by simp [ROK, rightOK], by simp [LOK, leftOK]⟩
  | paren _ ih => exact ⟨⟨_, List.mem_cons_self, rfl⟩, by simp [ROK, rightOK], by simp [LOK, leftOK]⟩
  | one _ ih => exact ih
  | single _ ih => exact ih
  | and _ _ ih1 ih2 => exact ⟨ih1.1.append_left _, hb _ ih1.1 ih1.2.1, ha _ ih2.1 ih2.2.2⟩
  | @or u v _ _ _ _ ih1 ih2 =>
    refine ⟨ih1.1.append_left _, hb _ ih1.1 ih1.2.1, ?_⟩
    have := ha (u ++ [.tok .colon]) ih2.1 ih2.2.2
    simpa using this
  | @blankL _ w _ _ ih => exact ⟨vis_cons.2 (Or.inr ih.1), hc _ rfl ih.2.1, ha [_] ih.1 ih.2.2⟩
  | blankR _ ih => exact ⟨ih.1.append_left _, hb _ ih.1 ih.2.1, hd _ rfl ih.2.2⟩
  | goneI _ ih =>
    exact ⟨vis_cons.2 (Or.inr (ih.1.append_left _)), hc _ rfl (hb _ ih.1 ih.2.1), ha [_] (ih.1.append_left _) (hd _ rfl ih.2.2)⟩
  | goneU _ ih =>
    exact ⟨vis_cons.2 (Or.inr (ih.1.append_left _)), hc _ rfl (hb _ ih.1 ih.2.1), ha [_] (ih.1.append_left _) (hd _ rfl ih.2.2)⟩

/-! ### replacing an inner parenthesis -/

/-- An inner parenthesis of a readable text may be replaced by an intersection of the same value; in a position where the parentheses are
redundant also by a union. -/
theorem G.ctx {σ r w b} (h : G σ r w b) : ∀ pre inner post, w = pre ++ .tok .lp :: (inner ++ .tok .rp :: post) → NoPar inner →
    ∃ c, G σ .union inner c ∧ (∀ x, G σ .inter x c → G σ (Text.up r) (pre ++ (x ++ post)) b) ∧
      (LOK pre → ROK post → ∀ x, G σ .union x c → G σ .union (pre ++ (x ++ post)) b ∧
        (Vis pre ∨ Vis post → G σ (Text.up r) (pre ++ (x ++ post)) b)) := by
  induction h with
  | num n _ =>
    intro pre inner post h
    have := congrArg List.length h
    simp at this
    omega
  | block _ _ =>
    intro pre inner post h
    have := congrArg List.length h
    simp at this
    omega
  | @paren w b hw ih =>
    intro pre inner post h hn
    rcases inner_paren hw.bal hn h with ⟨rfl, rfl, rfl⟩ | ⟨p, q, rfl, rfl, hq⟩
    · refine ⟨b, hw, fun x hx => by simpa [Text.up] using hx, fun _ _ x hx => ⟨by simpa using hx, fun hv => ?_⟩⟩
      rcases hv with hv | hv <;> exact absurd hv not_vis_nil
    · obtain ⟨c, h1, h2, h3⟩ := ih p inner q hq hn
      have back : ∀ x, G σ .union (p ++ (x ++ q)) b → G σ .inter (.tok .lp :: p ++ (x ++ (q ++ [.tok .rp]))) b := by
        intro x hx
        have := G.one (G.paren hx)
        simpa using this
      refine ⟨c, h1, fun x hx => back x (h2 x hx), fun hl hr x hx => ?_⟩
      have hl' : LOK p := hl.of_append (u := [.tok .lp])
      have hx' := back x (h3 hl' hr.of_append x hx).1
      exact ⟨.single hx', fun _ => hx'⟩
  | one _ ih => exact ih
  | single h ih =>
    intro pre inner post h hn
    obtain ⟨c, h1, h2, h3⟩ := ih pre inner post h hn
    exact ⟨c, h1, fun x hx => .single (h2 x hx), fun hl hr x hx => ⟨(h3 hl hr x hx).1, fun _ => (h3 hl hr x hx).1⟩⟩
  | @and u v b1 b2 hu hv ih1 ih2 =>
    intro pre inner post h hn
    rcases inner_append hu.bal hn h with ⟨p, hq, rfl⟩ | ⟨p, hq, rfl⟩
    · obtain ⟨c, h1, h2, h3⟩ := ih1 pre inner p hq hn
      refine ⟨c, h1, fun x hx => ?_, fun hl hr x hx => ?_⟩
      · have := G.and (h2 x hx) hv
        simpa [Text.up] using this
      · have := G.and ((h3 hl hr.of_append x hx).2 (Or.inr (hr.vis_of_append hv.ends.2.1))) hv
        rw [show pre ++ (x ++ (p ++ v)) = pre ++ (x ++ p) ++ v by simp]
        exact ⟨.single this, fun _ => this⟩
    · obtain ⟨c, h1, h2, h3⟩ := ih2 p inner post hq hn
      refine ⟨c, h1, fun x hx => ?_, fun hl hr x hx => ?_⟩
      · have := G.and hu (h2 x hx)
        simpa [Text.up] using this
      · have := G.and hu ((h3 hl.of_append hr x hx).2 (Or.inl (hl.vis_of_append hu.ends.2.2)))
        rw [show u ++ p ++ (x ++ post) = u ++ (p ++ (x ++ post)) by simp]
        exact ⟨.single this, fun _ => this⟩
  | @or u v b1 b2 hu hv ih1 ih2 =>
    intro pre inner post h hn
    rcases inner_append hu.bal hn h with ⟨p, hq, rfl⟩ | ⟨p, hq, rfl⟩
    · obtain ⟨c, h1, h2, h3⟩ := ih1 pre inner p hq hn
      refine ⟨c, h1, fun x hx => ?_, fun hl hr x hx => ?_⟩
      · have := G.or (h2 x hx) hv
        simpa [Text.up] using this
      · have := G.or (h3 hl hr.of_append x hx).1 hv
        rw [show pre ++ (x ++ (p ++ .tok .colon :: v)) = pre ++ (x ++ p) ++ .tok .colon :: v by simp]
        exact ⟨this, fun _ => this⟩
    · cases p with
      | nil => simp at hq
      | cons p0 p =>
        simp only [List.cons_append, List.cons.injEq] at hq
        obtain ⟨rfl, hq⟩ := hq
        obtain ⟨c, h1, h2, h3⟩ := ih2 p inner post hq hn
        refine ⟨c, h1, fun x hx => ?_, fun hl hr x hx => ?_⟩
        · have := G.or hu (h2 x hx)
          simpa [Text.up] using this
        · have hl' : LOK p := LOK.of_append (u := u ++ [.tok .colon]) (by simpa using hl)
          have := G.or hu (h3 hl' hr x hx).1
          rw [show u ++ .tok .colon :: p ++ (x ++ post) = u ++ .tok .colon :: (p ++ (x ++ post)) by simp]
          exact ⟨this, fun _ => this⟩
  | @blankL r w b hw ih =>
    intro pre inner post h hn
    cases pre with
    | nil => simp at h
    | cons p0 p =>
      simp only [List.cons_append, List.cons.injEq] at h
      obtain ⟨rfl, h⟩ := h
      obtain ⟨c, h1, h2, h3⟩ := ih p inner post h hn
      refine ⟨c, h1, fun x hx => .blankL (h2 x hx), fun hl hr x hx => ?_⟩
      have hl' : LOK p := hl.of_append (u := [.tok .blank])
      refine ⟨.blankL (h3 hl' hr x hx).1, fun hv => .blankL ((h3 hl' hr x hx).2 ?_)⟩
      rw [vis_cons] at hv
      simpa [vis] using hv
  | @blankR r w b hw ih =>
    intro pre inner post h hn
    rcases inner_append hw.bal hn h with ⟨p, hq, rfl⟩ | ⟨p, hq, rfl⟩
    · obtain ⟨c, h1, h2, h3⟩ := ih pre inner p hq hn
      refine ⟨c, h1, fun x hx => ?_, fun hl hr x hx => ?_⟩
      · have := G.blankR (h2 x hx)
        simpa using this
      · rw [show pre ++ (x ++ (p ++ [.tok .blank])) = pre ++ (x ++ p) ++ [.tok .blank] by simp]
        refine ⟨.blankR (h3 hl hr.of_append x hx).1, fun hv => .blankR ((h3 hl hr.of_append x hx).2 ?_)⟩
        rw [vis_append, vis_cons] at hv
        simpa [vis, not_vis_nil] using hv
    · have := congrArg List.length hq
      simp at this
      omega
  | @goneI w b hw ih =>
    intro pre inner post h hn
    cases pre with
    | nil => simp at h
    | cons p0 p =>
      simp only [List.cons_append, List.cons.injEq] at h
      obtain ⟨rfl, h⟩ := h
      rcases inner_append hw.bal hn h with ⟨q, hq, rfl⟩ | ⟨q, hq, rfl⟩
      · obtain ⟨c, h1, h2, h3⟩ := ih p inner q hq hn
        refine ⟨c, h1, fun x hx => ?_, fun hl hr x hx => ?_⟩
        · have := G.goneI (h2 x hx)
          simpa [Text.up] using this
        · have hl' : LOK p := hl.of_append (u := [.gone .lp])
          rw [show Item.gone .lp :: p ++ (x ++ (q ++ [.gone .rp])) = .gone .lp :: (p ++ (x ++ q) ++ [.gone .rp]) by simp]
          refine ⟨.goneU (h3 hl' hr.of_append x hx).1, fun hv => .goneI ((h3 hl' hr.of_append x hx).2 ?_)⟩
          rw [vis_append, vis_cons, vis_cons] at hv
          simpa [vis, not_vis_nil] using hv
      · have := congrArg List.length hq
        simp at this
        omega
  | @goneU w b hw ih =>
    intro pre inner post h hn
    cases pre with
    | nil => simp at h
    | cons p0 p =>
      simp only [List.cons_append, List.cons.injEq] at h
      obtain ⟨rfl, h⟩ := h
      rcases inner_append hw.bal hn h with ⟨q, hq, rfl⟩ | ⟨q, hq, rfl⟩
      · obtain ⟨c, h1, h2, h3⟩ := ih p inner q hq hn
        refine ⟨c, h1, fun x hx => ?_, fun hl hr x hx => ?_⟩
        · have := G.goneU (h2 x hx)
          simpa [Text.up] using this
        · have hl' : LOK p := hl.of_append (u := [.gone .lp])
          rw [show Item.gone .lp :: p ++ (x ++ (q ++ [.gone .rp])) = .gone .lp :: (p ++ (x ++ q) ++ [.gone .rp]) by simp]
          refine ⟨.goneU (h3 hl' hr.of_append x hx).1, fun _ => .goneU (h3 hl' hr.of_append x hx).1⟩
      · have := congrArg List.length hq
        simp at this
        omega

/-! ### numbers -/

/-- how many numbers a text has -/
def nums (ts : List Tok) : Nat := (ts.filter fun t => match t with | .num _ => true | _ => false).length

def numsI (w : List Item) : Nat := nums (origs true w)

@[simp] theorem nums_append (a b : List Tok) : nums (a ++ b) = nums a + nums b := by simp [nums]
@[simp] theorem nums_nil : nums [] = 0 := rfl
theorem nums_cons (t : Tok) (ts : List Tok) : nums (t :: ts) = nums [t] + nums ts := by
  rw [← nums_append]; rfl
@[simp] theorem origs_append (k : Bool) (u v : List Item) : origs k (u ++ v) = origs k u ++ origs k v := by simp [origs]
@[simp] theorem origs_cons (k : Bool) (x : Item) (v : List Item) : origs k (x :: v) = x.orig k ++ origs k v := by simp [origs]
@[simp] theorem origs_nil (k : Bool) : origs k [] = [] := rfl
@[simp] theorem numsI_append (u v : List Item) : numsI (u ++ v) = numsI u + numsI v := by simp [numsI]
theorem numsI_cons (x : Item) (v : List Item) : numsI (x :: v) = numsI [x] + numsI v := by
  rw [← numsI_append]; rfl
@[simp] theorem origs_map_tok (k : Bool) (ts : List Tok) : origs k (ts.map .tok) = ts := by
  induction ts with
  | nil => rfl
  | cons t ts ih => simp [ih, Item.orig]

theorem G.nums {σ r w b} (h : G σ r w b) : 0 < numsI w := by
  induction h with
  | num n _ => exact Nat.one_pos
  | block _ ih =>
    simp only [numsI, origs_map_tok] at ih
    simp only [numsI, origs_cons, Item.orig, origs_nil, List.append_nil]
    rw [nums_cons, nums_append]
    omega
  | paren _ ih => rw [numsI_cons, numsI_append]; omega
  | one _ ih => exact ih
  | single _ ih => exact ih
  | and _ _ ih1 ih2 => rw [numsI_append]; omega
  | or _ _ ih1 ih2 => rw [numsI_append]; omega
  | blankL _ ih => rw [numsI_cons]; omega
  | blankR _ ih => rw [numsI_append]; omega
  | goneI _ ih => rw [numsI_cons, numsI_append]; omega
  | goneU _ ih => rw [numsI_cons, numsI_append]; omega

/-- a parenthesis with no number outside of it is redundant -/
theorem G.lone {σ r w b} (h : G σ r w b) : ∀ pre inner post, w = pre ++ .tok .lp :: (inner ++ .tok .rp :: post) → NoPar inner →
    numsI pre + numsI post = 0 → LOK pre ∧ ROK post := by
  have nil : LOK [] ∧ ROK [] := ⟨rfl, rfl⟩
  induction h with
  | num n _ =>
    intro pre inner post h
    have := congrArg List.length h
    simp at this
    omega
  | block _ _ =>
    intro pre inner post h
    have := congrArg List.length h
    simp at this
    omega
  | @paren w b hw ih =>
    intro pre inner post h hn h0
    rcases inner_paren hw.bal hn h with ⟨rfl, rfl, rfl⟩ | ⟨p, q, rfl, rfl, hq⟩
    · exact nil
    · rw [numsI_cons, numsI_append] at h0
      obtain ⟨a, c⟩ := ih p inner q hq hn (by omega)
      exact ⟨LOK.append (u := [.tok .lp]) rfl a, c.append rfl⟩
  | one _ ih => exact ih
  | single h ih => exact ih
  | @and u v b1 b2 hu hv ih1 ih2 =>
    intro pre inner post h hn h0
    have := hu.nums
    have := hv.nums
    rcases inner_append hu.bal hn h with ⟨p, hq, rfl⟩ | ⟨p, hq, rfl⟩
    · rw [numsI_append] at h0; omega
    · rw [numsI_append] at h0; omega
  | @or u v b1 b2 hu hv ih1 ih2 =>
    intro pre inner post h hn h0
    have := hu.nums
    have := hv.nums
    rcases inner_append hu.bal hn h with ⟨p, hq, rfl⟩ | ⟨p, hq, rfl⟩
    · rw [numsI_append, numsI_cons] at h0; omega
    · rw [numsI_append] at h0; omega
  | @blankL r w b hw ih =>
    intro pre inner post h hn h0
    cases pre with
    | nil => simp at h
    | cons p0 p =>
      simp only [List.cons_append, List.cons.injEq] at h
      obtain ⟨rfl, h⟩ := h
      rw [numsI_cons] at h0
      obtain ⟨a, c⟩ := ih p inner post h hn (by omega)
      exact ⟨LOK.append (u := [.tok .blank]) rfl a, c⟩
  | @blankR r w b hw ih =>
    intro pre inner post h hn h0
    rcases inner_append hw.bal hn h with ⟨p, hq, rfl⟩ | ⟨p, hq, rfl⟩
    · rw [numsI_append] at h0
      obtain ⟨a, c⟩ := ih pre inner p hq hn (by omega)
      exact ⟨a, c.append rfl⟩
    · have := congrArg List.length hq
      simp at this
      omega
  | @goneI w b hw ih =>
    intro pre inner post h hn h0
    cases pre with
    | nil => simp at h
    | cons p0 p =>
      simp only [List.cons_append, List.cons.injEq] at h
      obtain ⟨rfl, h⟩ := h
      rcases inner_append hw.bal hn h with ⟨q, hq, rfl⟩ | ⟨q, hq, rfl⟩
      · rw [numsI_cons, numsI_append] at h0
        obtain ⟨a, c⟩ := ih p inner q hq hn (by omega)
        exact ⟨LOK.append (u := [.gone .lp]) rfl a, c.append rfl⟩
      · have := congrArg List.length hq
        simp at this
        omega
  | @goneU w b hw ih =>
    intro pre inner post h hn h0
    cases pre with
    | nil => simp at h
    | cons p0 p =>
      simp only [List.cons_append, List.cons.injEq] at h
      obtain ⟨rfl, h⟩ := h
      rcases inner_append hw.bal hn h with ⟨q, hq, rfl⟩ | ⟨q, hq, rfl⟩
      · rw [numsI_cons, numsI_append] at h0
        obtain ⟨a, c⟩ := ih p inner q hq hn (by omega)
        exact ⟨LOK.append (u := [.gone .lp]) rfl a, c.append rfl⟩
      · have := congrArg List.length hq
        simp at this
        omega

end Geouned.Text
