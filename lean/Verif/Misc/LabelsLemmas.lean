import Verif.Misc.Labels
import Mathlib.Data.List.Induction
import Mathlib.Data.List.Nodup
namespace Geouned.Labels

/-- label a list of cells one after the other -/
def labFold : List Cell → Int → List (Nat × Int) → Int × List (Nat × Int)
  | [], n, l => (n, l)
  | c :: cs, n, l => labFold cs (n + 1) ((c.ref, n + 1) :: l)

theorem labFold_append (a b : List Cell) (n : Int) (l : List (Nat × Int)) :
    labFold (a ++ b) n l = labFold b (labFold a n l).1 (labFold a n l).2 := by
  induction a generalizing n l with
  | nil => rfl
  | cons c a ih => exact ih _ _

theorem labFold_lookup_other (cs : List Cell) (n : Int) (l : List (Nat × Int)) (r : Nat) (h : ∀ c ∈ cs, c.ref ≠ r) :
    (labFold cs n l).2.lookup r = l.lookup r := by
  induction cs generalizing n l with
  | nil => rfl
  | cons c cs ih =>
    simp only [labFold]
    rw [ih _ _ fun x hx => h x (by simp [hx])]
    have : (r == c.ref) = false := by simp; exact fun e => h c (by simp) e.symm
    simp [List.lookup, this]

theorem labFold_labels (cs : List Cell) (n : Int) (l : List (Nat × Int)) (h : (cs.map Cell.ref).Nodup) :
    cs.map (fun c => (labFold cs n l).2.lookup c.ref) = (List.range cs.length).map fun i : Nat => some (n + 1 + (i : Int)) := by
  induction cs generalizing n l with
  | nil => rfl
  | cons c cs ih =>
    simp only [List.map_cons, List.nodup_cons, List.mem_map, not_exists, not_and] at h
    simp only [labFold, List.map_cons, List.length_cons, List.range_succ_eq_map, List.map_map]
    rw [ih _ _ h.2, labFold_lookup_other _ _ _ _ fun x hx => h.1 x hx]
    simp only [List.lookup, beq_self_eq_true]
    congr 1
    · simp
    · apply List.map_congr_left
      intro i _
      simp only [Function.comp]
      congr 1
      omega

/-- kept solids -/
def keptSolids (ms : List Cell) : List Cell := ms.filter fun m => !m.null && !m.isEncl
def keptVoids (ms : List Cell) : List Cell := ms.filter fun m => !m.null

def numberAll (cs : List Cell) (s : St) : St := cs.foldl St.number s

theorem numberAll_lab (cs : List Cell) (s : St) :
    ((numberAll cs s).count, (numberAll cs s).lab) = labFold cs s.count s.lab ∧ (numberAll cs s).com = s.com := by
  induction cs generalizing s with
  | nil => exact ⟨rfl, rfl⟩
  | cons c cs ih =>
    have := ih (s.number c)
    simp only [numberAll, List.foldl_cons] at this ⊢
    exact ⟨this.1, this.2⟩

theorem numberAll_ids (cs : List Cell) (s : St) (i : Int) :
    (∃ n, s.ids.lookup i = some n) ∨ (∃ c ∈ cs, c.id = i) → ∃ n, (numberAll cs s).ids.lookup i = some n := by
  induction cs generalizing s with
  | nil => simp [numberAll]
  | cons c cs ih =>
    intro h
    simp only [numberAll, List.foldl_cons]
    apply ih
    by_cases hi : i = c.id
    · left; exact ⟨s.count + 1, by simp [St.number, List.lookup, hi]⟩
    · have hb : (i == c.id) = false := by simp [hi]
      rcases h with ⟨n, h⟩ | ⟨c', hc', rfl⟩
      · left; exact ⟨n, by simp [St.number, List.lookup, hb, h]⟩
      · rcases List.mem_cons.1 hc' with rfl | hc'
        · exact absurd rfl hi
        · exact Or.inr ⟨c', hc', rfl⟩

/-- every value of `idLabel` is `0 ↦ 0` or the label given to a cell with that identifier -/
def IdsOk (cs : List Cell) (s : St) : Prop :=
  ∀ i n, s.ids.lookup i = some n → (i = 0 ∧ n = 0) ∨ ∃ c ∈ cs, c.id = i ∧ s.lab.lookup c.ref = some n

theorem idsOk_number {cs : List Cell} {s : St} (h : IdsOk cs s) (c : Cell) (hn : ∀ x ∈ cs, x.ref ≠ c.ref) :
    IdsOk (cs ++ [c]) (s.number c) := by
  intro i n hi
  by_cases e : i = c.id
  · subst e
    simp only [St.number, List.lookup, beq_self_eq_true] at hi
    right
    exact ⟨c, by simp, rfl, by simpa [St.number, List.lookup] using hi⟩
  · have hb : (i == c.id) = false := by simp [e]
    simp only [St.number, List.lookup, hb] at hi
    rcases h i n hi with h | ⟨x, hx, h1, h2⟩
    · exact Or.inl h
    · right
      have hb2 : (x.ref == c.ref) = false := by simp [hn x hx]
      exact ⟨x, by simp [hx], h1, by simpa [St.number, List.lookup, hb2] using h2⟩

theorem idsOk_numberAll (cs' : List Cell) (cs : List Cell) (s : St) (h : IdsOk cs s) (hn : ((cs ++ cs').map Cell.ref).Nodup) :
    IdsOk (cs ++ cs') (numberAll cs' s) := by
  induction cs' generalizing cs s with
  | nil => simpa [numberAll] using h
  | cons c cs' ih =>
    have e : cs ++ c :: cs' = (cs ++ [c]) ++ cs' := by simp
    rw [e] at hn ⊢
    refine ih (cs ++ [c]) (s.number c) (idsOk_number h c ?_) hn
    intro x hx hr
    rw [List.map_append, List.map_append, List.append_assoc] at hn
    have := (List.nodup_append.1 hn).2.2 x.ref (List.mem_map_of_mem hx) c.ref (by simp)
    exact this hr

theorem solidLoop_eq (ms : List Cell) (s : St) : solidLoop ms s = (numberAll (keptSolids ms) s, keptSolids ms) := by
  induction ms generalizing s with
  | nil => rfl
  | cons m ms ih =>
    unfold solidLoop
    by_cases h : (m.null || m.isEncl) = true
    · rw [if_pos h, ih]
      have : (!m.null && !m.isEncl) = false := by
        cases hn : m.null <;> cases he : m.isEncl <;> simp_all
      simp [keptSolids, List.filter, this]
    · rw [if_neg h, ih]
      have : (!m.null && !m.isEncl) = true := by
        cases hn : m.null <;> cases he : m.isEncl <;> simp_all
      simp [keptSolids, List.filter, this, numberAll]

theorem emit_eq (ms : List Cell) (s : St) : emit ms s = (numberAll (keptVoids ms) s, keptVoids ms) := by
  induction ms generalizing s with
  | nil => rfl
  | cons m ms ih =>
    unfold emit
    by_cases h : m.null = true
    · rw [if_pos h, ih]
      simp [keptVoids, List.filter, h]
    · rw [if_neg h, ih]
      have h' : m.null = false := by simpa using h
      simp [keptVoids, List.filter, h', numberAll]

theorem mapM_lookup {d : List (Int × Int)} (l : List Int) :
    (∀ i ∈ l, ∃ n, d.lookup i = some n) → ∃ ls, (l.mapM fun i => d.lookup i) = some ls := by
  induction l with
  | nil => intro _; exact ⟨[], rfl⟩
  | cons a l ih =>
    intro h
    obtain ⟨n, hn⟩ := h a (by simp)
    obtain ⟨ls, hls⟩ := ih fun i hi => h i (by simp [hi])
    exact ⟨n :: ls, by simp [List.mapM_cons, hn, hls]⟩

theorem mapM_lookup_spec {d : List (Int × Int)} (l : List Int) (ls : List Int)
    (h : (l.mapM fun i => d.lookup i) = some ls) : List.Forall₂ (fun i n => d.lookup i = some n) l ls := by
  induction l generalizing ls with
  | nil => simp at h; subst h; exact .nil
  | cons a l ih =>
    simp only [List.mapM_cons] at h
    cases hn : d.lookup a with
    | none => simp [hn] at h
    | some n =>
      cases hls : l.mapM fun i => d.lookup i with
      | none => simp [hn, hls] at h
      | some ls' =>
        simp [hn, hls] at h
        subst h
        exact .cons hn (ih ls' hls)

theorem updateComment_spec {s s' : St} {c : Cell} (h : updateComment s c = .ok s') :
    s'.count = s.count ∧ s'.lab = s.lab ∧ s'.ids = s.ids := by
  unfold updateComment at h
  split at h
  · cases h; exact ⟨rfl, rfl, rfl⟩
  · split at h
    · cases h
    · cases h; exact ⟨rfl, rfl, rfl⟩

theorem updateComment_com {s s' : St} {c : Cell} (h : updateComment s c = .ok s') :
    (c.info = none ∧ s'.com = s.com) ∨ ∃ l ls, c.info = some l ∧ s'.com = (c.ref, ls) :: s.com ∧
      List.Forall₂ (fun i n => s.ids.lookup i = some n) l ls := by
  unfold updateComment at h
  split at h
  · rename_i hi; cases h; exact Or.inl ⟨hi, rfl⟩
  · rename_i l hi
    split at h
    · cases h
    · rename_i ls hls
      cases h
      exact Or.inr ⟨l, ls, hi, rfl, mapM_lookup_spec _ _ hls⟩

theorem updateComment_ok {s : St} {c : Cell} (h : ∀ l, c.info = some l → ∀ i ∈ l, ∃ n, s.ids.lookup i = some n) :
    ∃ s', updateComment s c = .ok s' := by
  unfold updateComment
  cases hi : c.info with
  | none => exact ⟨s, rfl⟩
  | some l =>
    obtain ⟨ls, hls⟩ := mapM_lookup l (h l hi)
    simp [hls]

theorem voidLoop_spec (ms : List Cell) (s : St) (r : St × List Cell) (h : voidLoop ms s = .ok r) :
    r.2 = keptVoids ms ∧ (r.1.count, r.1.lab) = labFold (keptVoids ms) s.count s.lab ∧ r.1.ids = s.ids := by
  induction ms generalizing s r with
  | nil => cases h; exact ⟨rfl, rfl, rfl⟩
  | cons m ms ih =>
    unfold voidLoop at h
    by_cases hn : m.null = true
    · rw [if_pos hn] at h
      have := ih s r h
      simpa [keptVoids, List.filter, hn] using this
    · rw [if_neg hn] at h
      have hn' : m.null = false := by simpa using hn
      simp only [bind, Except.bind] at h
      split at h
      · cases h
      · rename_i s1 h1
        split at h
        · cases h
        · rename_i r1 h2
          cases h
          obtain ⟨a, b, c⟩ := ih s1 r1 h2
          obtain ⟨u1, u2, u3⟩ := updateComment_spec h1
          refine ⟨by simp [keptVoids, List.filter, hn', a], ?_, ?_⟩
          · rw [b, u1, u2]
            simp [keptVoids, List.filter, hn', labFold]
          · rw [c, u3]

theorem voidLoop_ok (ms : List Cell) (s : St)
    (h : ∀ v ∈ keptVoids ms, ∀ l, v.info = some l → ∀ i ∈ l, ∃ n, s.ids.lookup i = some n) :
    ∃ r, voidLoop ms s = .ok r := by
  induction ms generalizing s with
  | nil => exact ⟨_, rfl⟩
  | cons m ms ih =>
    unfold voidLoop
    by_cases hn : m.null = true
    · rw [if_pos hn]
      exact ih s (by simpa [keptVoids, List.filter, hn] using h)
    · rw [if_neg hn]
      have hn' : m.null = false := by simpa using hn
      have hk : keptVoids (m :: ms) = m :: keptVoids ms := by simp [keptVoids, List.filter, hn']
      rw [hk] at h
      obtain ⟨s1, h1⟩ := updateComment_ok (s := { s with count := s.count + 1, lab := (m.ref, s.count + 1) :: s.lab })
        (c := m) (h m (by simp))
      obtain ⟨u1, u2, u3⟩ := updateComment_spec h1
      obtain ⟨r, h2⟩ := ih s1 (by rw [u3]; exact fun v hv => h v (by simp [hv]))
      simp only [bind, Except.bind, h1, h2]
      exact ⟨_, rfl⟩

theorem voidLoop_comment (ms : List Cell) (s : St) (r : St × List Cell) (h : voidLoop ms s = .ok r)
    (hnd : ((keptVoids ms).map Cell.ref).Nodup) :
    (∀ ref, (∀ v ∈ keptVoids ms, v.ref ≠ ref) → r.1.com.lookup ref = s.com.lookup ref) ∧
    ∀ v ∈ keptVoids ms, ∀ l, v.info = some l → ∃ ls, r.1.com.lookup v.ref = some ls ∧
      List.Forall₂ (fun i n => s.ids.lookup i = some n) l ls := by
  induction ms generalizing s r with
  | nil => cases h; simp [keptVoids]
  | cons m ms ih =>
    unfold voidLoop at h
    by_cases hn : m.null = true
    · rw [if_pos hn] at h
      have hk : keptVoids (m :: ms) = keptVoids ms := by simp [keptVoids, List.filter, hn]
      rw [hk] at hnd ⊢
      exact ih s r h hnd
    · rw [if_neg hn] at h
      have hn' : m.null = false := by simpa using hn
      have hk : keptVoids (m :: ms) = m :: keptVoids ms := by simp [keptVoids, List.filter, hn']
      rw [hk] at hnd ⊢
      simp only [List.map_cons, List.nodup_cons, List.mem_map, not_exists, not_and] at hnd
      simp only [bind, Except.bind] at h
      split at h
      · cases h
      · rename_i s1 h1
        split at h
        · cases h
        · rename_i r1 h2
          cases h
          obtain ⟨a, b⟩ := ih s1 r1 h2 hnd.2
          obtain ⟨u1, u2, u3⟩ := updateComment_spec h1
          refine ⟨?_, ?_⟩
          · intro ref href
            rw [a ref fun v hv => href v (by simp [hv])]
            rcases updateComment_com h1 with ⟨_, e⟩ | ⟨l, ls, _, e, _⟩
            · rw [e]
            · rw [e]
              have : (ref == m.ref) = false := by simp; exact fun x => href m (by simp) x.symm
              simp [List.lookup, this]
          · intro v hv l hl
            rcases List.mem_cons.1 hv with rfl | hv
            · rw [a v.ref fun x hx => hnd.1 x hx]
              rcases updateComment_com h1 with ⟨e0, _⟩ | ⟨l', ls, e0, e, hf⟩
              · rw [e0] at hl; cases hl
              · rw [e0] at hl; cases hl
                exact ⟨ls, by rw [e]; simp [List.lookup], hf⟩
            · have := b v hv l hl
              rw [u3] at this
              exact this

theorem cells_append (a b : List Out) : cells (a ++ b) = cells a ++ cells b := by simp [cells]
theorem cells_map (a : List Cell) : cells (a.map .cell) = a := by
  induction a with
  | nil => rfl
  | cons c a ih => simp only [List.map_cons]; simp only [cells, List.filterMap_cons] at ih ⊢; rw [ih]
theorem cells_comment : cells [.comment] = [] := rfl
theorem cells_cons (c : Cell) (a : List Out) : cells (.cell c :: a) = c :: cells a := by simp [cells]

/-! ## sorted mode -/

theorem groupAdd_lookup (c : Cell) (q : Int) (d : List (Int × List Cell)) :
    (groupAdd c d).lookup q = if q = c.enclID then some ((d.lookup q).getD [] ++ [c]) else d.lookup q := by
  induction d with
  | nil =>
    by_cases h : q = c.enclID
    · simp [groupAdd, List.lookup, h]
    · have : (q == c.enclID) = false := by simp [h]
      simp [groupAdd, List.lookup, h, this]
  | cons kv d ih =>
    obtain ⟨k, v⟩ := kv
    unfold groupAdd
    by_cases hk : k = c.enclID
    · rw [if_pos hk]
      by_cases h : q = c.enclID
      · have e : q = k := by rw [h, hk]
        subst e
        simp [List.lookup, h]
      · have hb : (q == k) = false := by simp [hk, h]
        simp [List.lookup, hb, h]
    · rw [if_neg hk]
      by_cases h : q = k
      · subst h; simp [List.lookup, hk]
      · have hb : (q == k) = false := by simp [h]
        simp only [List.lookup, hb]
        exact ih

theorem group_lookup (voids : List Cell) (q : Int) :
    (group voids).lookup q = if (voids.filter fun v => v.enclID == q) = [] then none
      else some (voids.filter fun v => v.enclID == q) := by
  induction voids using List.reverseRecOn with
  | nil => simp [group]
  | append_singleton vs c ih =>
    have e : group (vs ++ [c]) = groupAdd c (group vs) := by simp [group]
    rw [e, groupAdd_lookup, ih]
    by_cases h : c.enclID = q
    · subst h
      by_cases hc : (vs.filter fun v => v.enclID == c.enclID) = []
      · simp [hc]
      · simp [hc]
    · have h' : ¬ q = c.enclID := fun x => h x.symm
      simp [h, h']

/-- the cells of the sorted list, before the top level void cells -/
def expand (voids metas : List Cell) : List Cell :=
  metas.flatMap fun m => if m.null then [] else if m.isEncl then keptVoids (voids.filter fun v => v.enclID == m.enclID) else [m]

theorem numberAll_append (a b : List Cell) (s : St) : numberAll (a ++ b) s = numberAll b (numberAll a s) := by
  simp [numberAll]

theorem sortLoop_spec (voids metas : List Cell) (s : St) (q : St × List Out) (h : sortLoop (group voids) metas s = .ok q) :
    q.1 = numberAll (expand voids metas) s ∧ cells q.2 = expand voids metas := by
  induction metas generalizing s q with
  | nil => cases h; exact ⟨rfl, rfl⟩
  | cons m ms ih =>
    unfold sortLoop at h
    by_cases hn : m.null = true
    · rw [if_pos hn] at h
      have e : expand voids (m :: ms) = expand voids ms := by simp [expand, hn]
      rw [e]; exact ih s q h
    · rw [if_neg hn] at h
      by_cases he : m.isEncl = true
      · rw [if_pos he, group_lookup] at h
        have e : expand voids (m :: ms) = keptVoids (voids.filter fun v => v.enclID == m.enclID) ++ expand voids ms := by
          simp [expand, hn, he]
        split at h
        · cases h
        · rename_i vs hvs
          split at hvs
          · cases hvs
          · cases hvs
            simp only [bind, Except.bind] at h
            split at h
            · cases h
            · rename_i q1 h1
              cases h
              obtain ⟨a, b⟩ := ih _ q1 h1
              rw [emit_eq] at a
              refine ⟨?_, ?_⟩
              · rw [e, numberAll_append]; exact a
              · rw [e, cells_append, cells_append, cells_append, cells_comment, emit_eq]
                dsimp only
                rw [cells_map, b]
                simp
      · rw [if_neg he] at h
        have e : expand voids (m :: ms) = m :: expand voids ms := by simp [expand, hn, he]
        simp only [bind, Except.bind] at h
        split at h
        · cases h
        · rename_i q1 h1
          cases h
          obtain ⟨a, b⟩ := ih _ q1 h1
          refine ⟨?_, ?_⟩
          · rw [e, a]; rfl
          · rw [e, cells_cons, b]

theorem sortLoop_ok (voids metas : List Cell) (s : St)
    (h : ∀ m ∈ metas, m.null = false → m.isEncl = true → ∃ v ∈ voids, v.enclID = m.enclID) :
    ∃ q, sortLoop (group voids) metas s = .ok q := by
  induction metas generalizing s with
  | nil => exact ⟨_, rfl⟩
  | cons m ms ih =>
    have ih' := fun s => ih s fun x hx => h x (by simp [hx])
    unfold sortLoop
    by_cases hn : m.null = true
    · rw [if_pos hn]; exact ih' s
    · rw [if_neg hn]
      by_cases he : m.isEncl = true
      · rw [if_pos he]
        obtain ⟨v, hv, e⟩ := h m (by simp) (by simpa using hn) he
        have hne : (voids.filter fun v => v.enclID == m.enclID) ≠ [] :=
          List.ne_nil_of_mem (List.mem_filter.2 ⟨hv, by simp [e]⟩)
        rw [group_lookup, if_neg hne]
        obtain ⟨q, hq⟩ := ih' (emit (voids.filter fun v => v.enclID == m.enclID) s).1
        simp only [bind, Except.bind, hq]
        exact ⟨_, rfl⟩
      · rw [if_neg he]
        obtain ⟨q, hq⟩ := ih' (s.number m)
        simp only [bind, Except.bind, hq]
        exact ⟨_, rfl⟩

theorem commentLoop_spec (os : List Out) (s s' : St) (h : commentLoop os s = .ok s') :
    s'.count = s.count ∧ s'.lab = s.lab ∧ s'.ids = s.ids := by
  induction os generalizing s with
  | nil => cases h; exact ⟨rfl, rfl, rfl⟩
  | cons o os ih =>
    cases o with
    | comment => exact ih s h
    | cell c =>
      unfold commentLoop at h
      split at h
      · exact ih s h
      · simp only [bind, Except.bind] at h
        split at h
        · cases h
        · rename_i s1 h1
          obtain ⟨a, b, c'⟩ := ih s1 h
          obtain ⟨u1, u2, u3⟩ := updateComment_spec h1
          exact ⟨a.trans u1, b.trans u2, c'.trans u3⟩

theorem commentLoop_ok (os : List Out) (s : St)
    (h : ∀ c ∈ cells os, ∀ l, c.info = some l → ∀ i ∈ l, ∃ n, s.ids.lookup i = some n) : ∃ s', commentLoop os s = .ok s' := by
  induction os generalizing s with
  | nil => exact ⟨_, rfl⟩
  | cons o os ih =>
    cases o with
    | comment => exact ih s h
    | cell c =>
      rw [cells_cons] at h
      unfold commentLoop
      split
      · exact ih s fun x hx => h x (by simp [hx])
      · obtain ⟨s1, h1⟩ := updateComment_ok (s := s) (c := c) (h c (by simp))
        obtain ⟨u1, u2, u3⟩ := updateComment_spec h1
        obtain ⟨s2, h2⟩ := ih s1 (by rw [u3]; exact fun x hx => h x (by simp [hx]))
        simp only [bind, Except.bind, h1, h2]
        exact ⟨_, rfl⟩

theorem sorted_spec (offset : Int) (metas voids : List Cell) (r : St × List Out) (h : sorted offset metas voids = .ok r) :
    cells r.2 = expand voids metas ++ keptVoids (voids.filter fun v => v.enclID == 0) ∧
    (r.1.count, r.1.lab) = labFold (cells r.2) offset [] := by
  unfold sorted at h
  simp only [bind, Except.bind] at h
  split at h
  · cases h
  · rename_i q hq
    obtain ⟨a, b⟩ := sortLoop_spec voids metas _ q hq
    rw [group_lookup] at h
    split at h
    · cases h
    · rename_i vs hvs
      split at hvs
      · cases hvs
      · cases hvs
        split at h
        · cases h
        · rename_i s1 h1
          cases h
          obtain ⟨c1, c2, c3⟩ := commentLoop_spec _ _ _ h1
          rw [emit_eq] at c1 c2
          have hc : cells (q.2 ++ [Out.comment] ++ List.map Out.cell (emit (voids.filter fun v => v.enclID == 0) q.1).2) =
              expand voids metas ++ keptVoids (voids.filter fun v => v.enclID == 0) := by
            rw [cells_append, cells_append, cells_comment, emit_eq, b]
            dsimp only
            rw [cells_map]
            simp
          refine ⟨hc, ?_⟩
          rw [hc]
          dsimp only at c1 c2 ⊢
          rw [c1, c2, a, ← numberAll_append]
          exact (numberAll_lab _ _).1

end Geouned.Labels
