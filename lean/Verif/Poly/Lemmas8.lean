import Verif.Poly.Lemmas7
/-! Lemmas about the planes and the definition together -/
namespace Geouned.Poly
open Geouned Geouned.Text

variable {P : Type}

theorem mem_dedup {α : Type} [DecidableEq α] {a : α} : ∀ {l : List α}, a ∈ dedup l ↔ a ∈ l
  | [] => by simp [dedup]
  | b :: l => by
    simp only [dedup]
    split
    · next h =>
      rw [mem_dedup]
      constructor
      · intro h1; simp [h1]
      · intro h1
        rcases List.mem_cons.1 h1 with rfl | h1
        · exact h
        · exact h1
    · simp [mem_dedup]

/-- everything that is known of the result -/
structure Outcome (surfaces : Nat → Option (Surf P)) (o : Orient) (d : Seq) (planes : Nat → Option P) (r : Seq) (N : Nat) (dict : List (Nat × Group Nat)) : Prop where
  le : ∀ n, Has n d → n.natAbs ≤ N
  dom : ∀ k p, planes k = some p → k ≤ N → surfaces k = some (.plane p)
  entry : ∀ x ∈ dict, ∃ n conv, Has n d ∧ n.natAbs = x.1 ∧ surfaces x.1 = some (.curved conv) ∧
    (conv (posOf o n)).Rel (fun p k => planes k = some p ∧ N < k) x.2
  plane : ∀ n p, Has n d → surfaces n.natAbs = some (.plane p) → planes n.natAbs = some p
  curved : ∀ n conv, Has n d → surfaces n.natAbs = some (.curved conv) → ∃ x ∈ dict, x.1 = n.natAbs
  has : ∀ n, Has n r → (Has n d ∧ ∀ x ∈ dict, x.2 ≠ .flat [] → n.natAbs ≠ x.1) ∨ ∃ x ∈ dict, n.natAbs ∈ x.2.nums
  result : ∀ ρ, (∀ x ∈ dict, Good o ρ d x.1 x.2) → Result o ρ d r
  exact' : ∀ ρ, (∀ x ∈ dict, x.2 ≠ .flat [] → Plain o d x.1 x.2.twoSided ∧ ((x.2.Inside fun p => ρ p = true) ↔ ρ x.1 = false)) → r.sem ρ = d.sem ρ

theorem planesOf_outcome {order : List Int → List Int} (horder : ∀ l n, n ∈ order l ↔ n ∈ l) {surfaces : Nat → Option (Surf P)} {d : Seq}
    (hd : Cell surfaces d) (o : Orient) : ∃ planes r N dict, planesOf order surfaces o d = .ok (planes, r) ∧ Outcome surfaces o d planes r N dict := by
  have hmem : ∀ n, n ∈ order (dedup (signed d)) ↔ Has n d := fun n => by rw [horder, mem_dedup]; exact mem_signed _ d (Nat.le_refl _) n
  have hle : ∀ n, Has n d → n.natAbs ≤ maxAbs (signed d) := fun n h => le_maxAbs ((mem_signed _ d (Nat.le_refl _) n).2 h)
  obtain ⟨t, h1, h2⟩ := quadLoop_spec (surfaces := surfaces) (o := o) (N := maxAbs (signed d)) (order (dedup (signed d))) (fun _ => False)
    ⟨maxAbs (signed d) + 1, fun _ => none, []⟩ (fun n hn => ⟨hle n ((hmem n).1 hn), (hd.known n ((hmem n).1 hn)).2⟩)
    ⟨Nat.lt_succ_self _, by simp, by simp, by simp, by simp⟩
  have e1 : quadricToPlane order surfaces o d = .ok t := h1
  obtain ⟨r, h3, -, h4, h5, h6⟩ := planeDefinition_spec o (maxAbs (signed d)) t.dict d (by
    intro x hx
    obtain ⟨n, conv, k1, k2, k3, k4⟩ := h2.dict x hx
    have k1 : Has n d := (hmem n).1 (by simpa using k1)
    obtain ⟨f1, f2, f3, f4⟩ := k4.facts
    refine ⟨by have := (hd.known n k1).1; omega, by have := hle n k1; omega, f2.2 (hd.group _ _ k3 _), fun p hp => ?_⟩
    obtain ⟨q, hq⟩ := f4 p hp
    exact hq.2.1) (.inr hd.expr) (by obtain ⟨op, l, es, h⟩ := hd.list; rw [h]; simp)
  refine ⟨t.planes, r, maxAbs (signed d), t.dict, by simp only [planesOf, e1, h3, bind, Except.bind], hle, fun k p hk hN => ?_, fun x hx => ?_, fun n p hn hp => ?_, fun n conv hn hc => ?_, h4, h5, h6⟩
  · rcases h2.dom k p hk with h | h
    · exact h.2
    · omega
  · obtain ⟨n, conv, k1, k2, k3, k4⟩ := h2.dict x hx
    exact ⟨n, conv, (hmem n).1 (by simpa using k1), k2, k3, k4.mono fun p k h => ⟨h.1, h.2.1⟩⟩
  · exact h2.plane n p (.inr ((hmem n).2 hn)) hp
  · exact h2.curved n conv (.inr ((hmem n).2 hn)) hc

theorem Outcome.supported {surfaces : Nat → Option (Surf P)} {o : Orient} {d r : Seq} {planes : Nat → Option P} {N : Nat} {dict : List (Nat × Group Nat)}
    (h : Outcome surfaces o d planes r N dict) (hd : Cell surfaces d) (hs : Supported surfaces) : ∀ n, Has n r → ∃ p, planes n.natAbs = some p := by
  intro n hn
  rcases h.has n hn with ⟨h1, h2⟩ | ⟨x, h1, h2⟩
  · cases hsn : surfaces n.natAbs with
    | none => have := (hd.known n h1).2; rw [hsn] at this; simp at this
    | some s =>
      cases s with
      | plane p => exact ⟨p, h.plane n p h1 hsn⟩
      | curved conv =>
        obtain ⟨x, hx, he⟩ := h.curved n conv h1 hsn
        refine absurd he.symm (h2 x hx fun hf => ?_)
        obtain ⟨m, conv', -, -, k3, k4⟩ := h.entry x hx
        exact hs _ conv' k3 _ (k4.facts.2.2.1.1 hf)
  · obtain ⟨m, conv, -, -, -, k4⟩ := h.entry x h1
    obtain ⟨p, hp⟩ := k4.facts.2.2.2 _ h2
    exact ⟨p, hp.1⟩

/-- the sides of surfaces and planes together -/
def mix (σ τ : Side) (N : Nat) : Side := fun n => if n ≤ N then σ n else τ n

theorem Outcome.mix_d {surfaces : Nat → Option (Surf P)} {o : Orient} {d r : Seq} {planes : Nat → Option P} {N : Nat} {dict : List (Nat × Group Nat)}
    (h : Outcome surfaces o d planes r N dict) (σ τ : Side) : d.sem (mix σ τ N) = d.sem σ := by
  refine C14_support d _ _ fun v hv => ?_
  rcases occurs_has ((mem_surfaces v d).1 hv) with g | g
  · have := h.le _ g
    simp only [mix]; rw [if_pos (by omega)]
  · have := h.le _ g
    simp only [mix]; rw [if_pos (by omega)]

theorem Outcome.mix_r {surfaces : Nat → Option (Surf P)} {o : Orient} {d r : Seq} {planes : Nat → Option P} {N : Nat} {dict : List (Nat × Group Nat)}
    (h : Outcome surfaces o d planes r N dict) (hd : Cell surfaces d) (hs : Supported surfaces) {σ τ : Side} {on : P → Bool}
    (hp : ∀ n p, surfaces n = some (.plane p) → σ n = on p) (hτ : ∀ n p, planes n = some p → τ n = on p) : r.sem (mix σ τ N) = r.sem τ := by
  refine C14_support r _ _ fun v hv => ?_
  have : ∃ p, planes v = some p := by
    rcases occurs_has ((mem_surfaces v r).1 hv) with g | g
    · simpa using h.supported hd hs _ g
    · simpa using h.supported hd hs _ g
  obtain ⟨p, hpv⟩ := this
  simp only [mix]
  split
  · next hN => rw [hτ v p hpv, hp v p (h.dom v p hpv hN)]
  · rfl

theorem Outcome.inside {surfaces : Nat → Option (Surf P)} {o : Orient} {d r : Seq} {planes : Nat → Option P} {N : Nat} {dict : List (Nat × Group Nat)}
    (h : Outcome surfaces o d planes r N dict) {σ τ : Side} {on : P → Bool} (hτ : ∀ n p, planes n = some p → τ n = on p) {x : Nat × Group Nat} (hx : x ∈ dict) :
    ∃ n conv, Has n d ∧ n.natAbs = x.1 ∧ surfaces x.1 = some (.curved conv) ∧ x.2.twoSided = (conv (posOf o n)).twoSided ∧
      (x.2 = .flat [] ↔ conv (posOf o n) = .flat []) ∧
      ((x.2.Inside fun p => mix σ τ N p = true) ↔ (conv (posOf o n)).Inside fun p => on p = true) := by
  obtain ⟨n, conv, k1, k2, k3, k4⟩ := h.entry x hx
  refine ⟨n, conv, k1, k2, k3, k4.facts.1, k4.facts.2.2.1, ?_⟩
  refine (k4.inside fun p k hr => ?_).symm
  simp only [mix]
  rw [if_neg (by omega), hτ k p hr.1]

end Geouned.Poly
