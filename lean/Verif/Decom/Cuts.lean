import Verif.Decom.Model
/-!
# Lemmas: a decomposition that is not reported has met no cut that failed
-/
namespace Geouned.Decom

variable {S T : Type}

/-- the kernel with other cuts -/
def Cad.with (k : Cad S T) (sl : S → List T → ℚ → Option (List S)) : Cad S T := { k with slice := sl }

/-- every cut the first kernel can make (at one of the tolerances tried) is made by the second one, with the same pieces -/
def Extends (o : Options) (k : Cad S T) (sl : S → List T → ℚ → Option (List S)) : Prop :=
  ∀ s ts c, cutBy k o s ts = .ok c → cutBy (k.with sl) o s ts = .ok c

theorem cutRound_mono {cut cut' : S → Except Exc (List S × Nat)} (h : ∀ b r, cut b = .ok r → cut' b = .ok r) :
    ∀ (bs done new : List S) (err : Nat) (r : List S × List S × Nat), cutRound cut bs done new err = .ok r → cutRound cut' bs done new err = .ok r := by
  intro bs
  induction bs with
  | nil => intro done new err r e; exact e
  | cons b bs ih =>
    intro done new err r e
    rw [cutRound] at e ⊢
    cases hb : cut b with
    | error x => rw [hb] at e; cases e
    | ok q =>
      rw [hb] at e
      rw [h b q hb]
      dsimp only at e ⊢
      split at e
      · rename_i hc; rw [if_pos hc]; exact ih _ _ _ _ e
      · rename_i hc; rw [if_neg hc]; exact ih _ _ _ _ e

theorem cutLoop_mono {cut cut' : S → Except Exc (List S × Nat)} (h : ∀ b r, cut b = .ok r → cut' b = .ok r) :
    ∀ (n : Nat) (bs done : List S) (err : Nat) (r : List S × Nat), cutLoop cut n bs done err = .ok r → cutLoop cut' n bs done err = .ok r := by
  intro n
  induction n with
  | zero => intro bs done err r e; cases e
  | succ n ih =>
    intro bs done err r e
    rw [cutLoop] at e ⊢
    cases hc : cutRound cut bs done [] err with
    | error x => rw [hc] at e; cases e
    | ok q =>
      rw [hc] at e
      rw [cutRound_mono h _ _ _ _ _ hc]
      dsimp only at e ⊢
      split at e
      · rename_i hn; rw [if_pos hn]; exact e
      · rename_i hn; rw [if_neg hn]; exact ih _ _ _ _ e

theorem planeLoop_mono {o : Options} {k : Cad S T} {sl : S → List T → ℚ → Option (List S)} (h : Extends o k sl) (s : S) :
    ∀ (gs : List (List T)) (r : List S), planeLoop k o s gs = .ok r → planeLoop (k.with sl) o s gs = .ok r := by
  intro gs
  induction gs with
  | nil => intro r e; exact e
  | cons g gs ih =>
    intro r e
    rw [planeLoop] at e ⊢
    cases hc : cutBy k o s g with
    | error x => rw [hc] at e; cases e
    | ok c =>
      rw [hc] at e
      rw [h s g c hc]
      dsimp only at e ⊢
      split at e
      · rename_i hn; rw [if_pos hn]; exact e
      · rename_i hn; rw [if_neg hn]; exact ih _ e

theorem planeCut_mono {o : Options} {k : Cad S T} {sl : S → List T → ℚ → Option (List S)} (h : Extends o k sl) (b : S) (r : List S × Nat)
    (e : planeCut k o b = .ok r) : planeCut (k.with sl) o b = .ok r := by
  unfold planeCut splitPPlanes at e ⊢
  dsimp only at e ⊢
  rw [show Planes.sortPlanes (k.with sl).par (fun a b => decide (a ≤ b)) (k.with sl).pos false ((k.with sl).planes b) =
    Planes.sortPlanes k.par (fun a b => decide (a ≤ b)) k.pos false (k.planes b) from rfl]
  by_cases hg : (Planes.sortPlanes k.par (fun a b => decide (a ≤ b)) k.pos false (k.planes b)).length = 0
  · rw [if_pos hg] at e ⊢; exact e
  · rw [if_neg hg] at e ⊢
    cases hp : planeLoop k o b (orderGroups o (Planes.sortPlanes k.par (fun a b => decide (a ≤ b)) k.pos false (k.planes b))) with
    | error x => rw [hp] at e; cases e
    | ok c => rw [hp] at e; rw [planeLoop_mono h _ _ _ hp]; exact e

theorem auxLoop_mono {o : Options} {k : Cad S T} {sl : S → List T → ℚ → Option (List S)} (h : Extends o k sl) (s : S) :
    ∀ (ps : List T) (com : List S) (err : Nat) (r : List S × Nat), auxLoop k o s ps com err = .ok r → auxLoop (k.with sl) o s ps com err = .ok r := by
  intro ps
  have hrem : ∀ l : List S, removeSolids (k.with sl) l = removeSolids k l := by
    intro l
    induction l with
    | nil => rfl
    | cons a l ih => simp only [removeSolids, ih]; rfl
  induction ps with
  | nil => intro com err r e; exact e
  | cons p ps ih =>
    intro com err r e
    rw [auxLoop] at e ⊢
    cases hc : cutBy k o s [p] with
    | error x => rw [hc] at e; cases e
    | ok c =>
      rw [hc] at e
      rw [h s [p] c hc]
      dsimp only at e ⊢
      rw [hrem]
      split at e
      · rename_i hn; rw [if_pos hn]; exact ih _ _ _ e
      · rename_i hn
        rw [if_neg hn]
        split at e
        · rename_i hn2
          rw [if_pos hn2]
          split at e
          · rename_i hn3; rw [if_pos hn3]; exact e
          · rename_i hn3; rw [if_neg hn3]; exact ih _ _ _ e
        · rename_i hn2; rw [if_neg hn2]; exact ih _ _ _ e

theorem split2ndOPlane_mono {o : Options} {k : Cad S T} {sl : S → List T → ℚ → Option (List S)} (h : Extends o k sl) (b : S) (r : List S × Nat)
    (e : split2ndOPlane k o b = .ok r) : split2ndOPlane (k.with sl) o b = .ok r := by
  unfold split2ndOPlane at e ⊢
  rw [show (k.with sl).aux b = k.aux b from rfl]
  split at e
  · rename_i hn; rw [if_pos hn]; exact e
  · rename_i hn; rw [if_neg hn]; exact auxLoop_mono h _ _ _ _ _ e

/-! ## cuts by curved surfaces -/

theorem secondTry_le {o : Options} {k : Cad S T} (s : S) : ∀ (ts : List T) (err : Nat), err ≤ (secondTry k o s ts err).2 := by
  intro ts
  induction ts with
  | nil => intro err; exact le_refl _
  | cons t ts ih =>
    intro err
    rw [secondTry]
    split
    · exact le_trans (by omega) (ih (err + 2))
    · split
      · exact le_trans (by omega) (ih (err + 2))
      · dsimp only
        split
        · exact le_refl _
        · exact ih err

theorem secondTry_mono {o : Options} {k : Cad S T} {sl : S → List T → ℚ → Option (List S)} (h : Extends o k sl) (s : S) :
    ∀ (ts : List T) (r : Option (List S)), secondTry k o s ts 0 = (r, 0) → secondTry (k.with sl) o s ts 0 = (r, 0) := by
  intro ts
  induction ts with
  | nil => intro r e; exact e
  | cons t ts ih =>
    intro r e
    rw [secondTry] at e ⊢
    cases hc : cutBy k o s [t] with
    | error x =>
      rw [hc] at e
      have := secondTry_le (k := k) (o := o) s ts (0 + 2)
      dsimp only at e
      rw [e] at this
      dsimp only at this
      omega
    | ok c =>
      rw [hc] at e
      rw [h s [t] c hc]
      dsimp only at e ⊢
      rw [show (k.with sl).vol = k.vol from rfl, show volume (k.with sl) = volume k from rfl]
      split at e
      · have := secondTry_le (k := k) (o := o) s ts (0 + 2)
        rw [e] at this
        dsimp only at this
        omega
      · rename_i hv
        rw [if_neg hv]
        split at e
        · rename_i hk; rw [if_pos hk]; exact e
        · rename_i hk; rw [if_neg hk]; exact ih _ e

theorem kindRound_le {o : Options} {k : Cad S T} {kd : Kind} : ∀ (ss kb cb : List S) (err : Nat), err ≤ (kindRound k o kd ss kb cb err).2.2 := by
  intro ss
  induction ss with
  | nil => intro kb cb err; exact le_refl _
  | cons s ss ih =>
    intro kb cb err
    rw [kindRound]
    split
    · exact ih _ _ _
    · have := secondTry_le (k := k) (o := o) s (k.second kd s) err
      split
      · rename_i ps e' he; rw [he] at this; exact le_trans this (ih _ _ _)
      · rename_i e' he; rw [he] at this; exact le_trans this (ih _ _ _)

theorem kindRound_mono {o : Options} {k : Cad S T} {sl : S → List T → ℚ → Option (List S)} (h : Extends o k sl) {kd : Kind} :
    ∀ (ss kb cb : List S) (r : List S × List S), kindRound k o kd ss kb cb 0 = (r.1, r.2, 0) → kindRound (k.with sl) o kd ss kb cb 0 = (r.1, r.2, 0) := by
  intro ss
  induction ss with
  | nil => intro kb cb r e; exact e
  | cons s ss ih =>
    intro kb cb r e
    rw [kindRound] at e ⊢
    rw [show (k.with sl).second = k.second from rfl]
    split at e
    · rename_i hn; rw [if_pos hn]; exact ih _ _ _ e
    · rename_i hn
      rw [if_neg hn]
      rcases hst : secondTry k o s (k.second kd s) 0 with ⟨q, e'⟩
      rw [hst] at e
      have he' : e' = 0 := by
        cases q with
        | none =>
          dsimp only at e
          have := kindRound_le (k := k) (o := o) (kd := kd) ss (kb ++ [s]) cb e'
          rw [e] at this; simpa using this
        | some ps =>
          dsimp only at e
          have := kindRound_le (k := k) (o := o) (kd := kd) ss kb (cb ++ ps) e'
          rw [e] at this; simpa using this
      subst he'
      rw [secondTry_mono h s _ _ hst]
      cases q with
      | none => exact ih _ _ _ e
      | some ps => exact ih _ _ _ e

theorem kindLoop_le {o : Options} {k : Cad S T} {kd : Kind} : ∀ (n : Nat) (base kb : List S) (err : Nat) (r : List S × Nat),
    kindLoop k o kd n base kb err = .ok r → err ≤ r.2 := by
  intro n
  induction n with
  | zero => intro base kb err r e; cases e
  | succ n ih =>
    intro base kb err r e
    rw [kindLoop] at e
    have := kindRound_le (k := k) (o := o) (kd := kd) base kb [] err
    rcases hk : kindRound k o kd base kb [] err with ⟨a, b, c⟩
    rw [hk] at e this
    dsimp only at e this
    split at e
    · cases e; exact this
    · exact le_trans this (ih _ _ _ _ e)

theorem kindLoop_mono {o : Options} {k : Cad S T} {sl : S → List T → ℚ → Option (List S)} (h : Extends o k sl) {kd : Kind} :
    ∀ (n : Nat) (base kb out : List S), kindLoop k o kd n base kb 0 = .ok (out, 0) → kindLoop (k.with sl) o kd n base kb 0 = .ok (out, 0) := by
  intro n
  induction n with
  | zero => intro base kb out e; cases e
  | succ n ih =>
    intro base kb out e
    rw [kindLoop] at e ⊢
    rcases hk : kindRound k o kd base kb [] 0 with ⟨a, b, c⟩
    rw [hk] at e
    dsimp only at e
    split at e
    · rename_i hb
      cases e
      rw [kindRound_mono h base kb [] (out, b) hk]
      dsimp only
      rw [if_pos hb]
    · rename_i hb
      have hc : c = 0 := by have := kindLoop_le _ _ _ _ _ e; simpa using this
      subst hc
      rw [kindRound_mono h base kb [] (a, b) hk]
      dsimp only
      rw [if_neg hb]
      exact ih _ _ _ e

theorem kindsLoop_le {o : Options} {k : Cad S T} {n : Nat} : ∀ (kds : List Kind) (base : List S) (err : Nat) (r : List S × Nat),
    kindsLoop k o n kds base err = .ok r → err ≤ r.2 := by
  intro kds
  induction kds with
  | nil => intro base err r e; cases e; exact le_refl _
  | cons kd kds ih =>
    intro base err r e
    rw [kindsLoop] at e
    split at e
    · cases e
    · rename_i b' e' hk
      exact le_trans (kindLoop_le _ _ _ _ _ hk) (ih _ _ _ e)

theorem kindsLoop_mono {o : Options} {k : Cad S T} {sl : S → List T → ℚ → Option (List S)} (h : Extends o k sl) {n : Nat} :
    ∀ (kds : List Kind) (base out : List S), kindsLoop k o n kds base 0 = .ok (out, 0) → kindsLoop (k.with sl) o n kds base 0 = .ok (out, 0) := by
  intro kds
  induction kds with
  | nil => intro base out e; exact e
  | cons kd kds ih =>
    intro base out e
    rw [kindsLoop] at e ⊢
    split at e
    · cases e
    · rename_i b' e' hk
      have he : e' = 0 := by have := kindsLoop_le _ _ _ _ e; simpa using this
      subst he
      rw [kindLoop_mono h _ _ _ _ hk]
      exact ih _ _ e

theorem keepPieces_le (k : Cad S T) : ∀ (ps : List S) (err : Nat), err ≤ (keepPieces k ps err).2 := by
  intro ps
  induction ps with
  | nil => intro err; exact le_refl _
  | cons p ps ih =>
    intro err
    rw [keepPieces]
    split
    · exact le_trans (by omega) (ih (err + 2))
    · exact ih err

theorem keepPieces_with (k : Cad S T) (sl : S → List T → ℚ → Option (List S)) : ∀ (ps : List S) (err : Nat), keepPieces (k.with sl) ps err = keepPieces k ps err := by
  intro ps
  induction ps with
  | nil => intro err; rfl
  | cons p ps ih => intro err; simp only [keepPieces, ih]; rfl

theorem splitComponent_mono {o : Options} {k : Cad S T} {sl : S → List T → ℚ → Option (List S)} (h : Extends o k sl) {n : Nat} {solids out : List S}
    (e : splitComponent k o n solids = .ok (out, 0)) : splitComponent (k.with sl) o n solids = .ok (out, 0) := by
  unfold splitComponent at e ⊢
  split at e
  · cases e
  · rename_i s0 e0 h0
    have h0' : splitPlanes (k.with sl) o n solids = .ok (s0, e0) := by
      unfold splitPlanes at h0 ⊢
      split at h0
      · cases h0
      · rename_i q1 q2 hq
        rw [cutLoop_mono (planeCut_mono h) _ _ _ _ _ hq]
        exact h0
    rw [h0']
    split at e
    · cases e
    · rename_i s1 e1 h1
      split at e
      · cases e
      · rename_i s2 e2 h2
        dsimp only at e ⊢
        have hk : (keepPieces k s2 (e0 + e1 + e2)).2 = 0 := by
          split at e
          · cases e
          · split at e
            · injection e with e
              have := congrArg Prod.snd e
              dsimp only at this
              omega
            · injection e with e
              have := congrArg Prod.snd e
              exact this
        have he1 : e1 = 0 := by
          have := keepPieces_le k s2 (e0 + e1 + e2)
          omega
        subst he1
        have h1' : split2ndOrder (k.with sl) o n s0 = .ok (s1, 0) := kindsLoop_mono h _ _ _ h1
        have h2' : split2ndOrderPlanes (k.with sl) o n s1 = .ok (s2, e2) := cutLoop_mono (split2ndOPlane_mono h) _ _ _ _ _ h2
        rw [h1']
        dsimp only
        rw [h2']
        dsimp only
        rw [keepPieces_with, show volume (k.with sl) = volume k from rfl]
        exact e

end Geouned.Decom
