import Verif.Alias.Lemmas3
/-!
# Lemmas for property C58 (4): levels and meaning after insertion
-/
namespace Geouned.Alias

/-! ## levels after `level_update` -/

theorem slevL_zero : ∀ ts : List Tree, Tree.PlainL ts → slevL ts = 0 → ∀ u ∈ ts, ∃ n, u = .int n
  | [], _, _, u, hu => by simp at hu
  | t :: ts, hp, h0, u, hu => by
    simp only [slevL] at h0
    simp only [Tree.PlainL] at hp
    have := slevL_nonneg ts
    simp only [List.mem_cons] at hu
    rcases hu with rfl | hu
    · cases u with
      | int n => exact ⟨n, rfl⟩
      | boo a op b => simp [Tree.Plain] at hp
      | lst a op us => simp only [slev] at h0; have := slevL_nonneg us; omega
    · exact slevL_zero ts hp.2 (by omega) u hu

mutual
theorem flat_of_lev {h : Heap} : ∀ t : Tree, t.Plain → LevOK h (subs t) → FlatOK h t
  | .int _, _, _ => by simp [FlatOK]
  | .boo _ _ _, _, _ => by simp [FlatOK]
  | .lst a op ts, hp, hl => by
    simp only [Tree.Plain] at hp
    simp only [FlatOK]
    refine ⟨fun e => slevL_zero ts hp ?_, flatL_of_lev ts hp (fun u hu => hl u (by simp [subs, hu]))⟩
    have := hl (.lst a op ts) (by simp [subs]) a rfl
    simp only [slev] at this
    omega
theorem flatL_of_lev {h : Heap} : ∀ ts : List Tree, Tree.PlainL ts → LevOK h (subsL ts) → FlatOKL h ts
  | [], _, _ => by simp [FlatOKL]
  | t :: ts, hp, hl => by
    simp only [Tree.PlainL] at hp
    simp only [FlatOKL]
    exact ⟨flat_of_lev t hp.1 (fun u hu => hl u (by simp [subsL, hu])), flatL_of_lev ts hp.2 (fun u hu => hl u (by simp [subsL, hu]))⟩
end

/-! ## facts on the expression after insertion -/

mutual
theorem insT_plain {tgt n : Int} {new : Nat} {op : Op} (ht : tgt ≠ 0) (hn : n ≠ 0) : ∀ t : Tree, t.Plain →
    (insT tgt (.lst new op [.int tgt, .int n]) t).Plain
  | .int m, hp => by
    simp only [insT]; split
    · simp [Tree.Plain, Tree.PlainL, ht, hn]
    · exact hp
  | .boo _ _ _, hp => by simp [Tree.Plain] at hp
  | .lst a o ts, hp => by simp only [insT, Tree.Plain] at hp ⊢; exact insL_plain ht hn ts hp
theorem insL_plain {tgt n : Int} {new : Nat} {op : Op} (ht : tgt ≠ 0) (hn : n ≠ 0) : ∀ ts : List Tree, Tree.PlainL ts →
    Tree.PlainL (insL tgt (.lst new op [.int tgt, .int n]) ts)
  | [], _ => by simp [insL, Tree.PlainL]
  | t :: ts, hp => by
    simp only [insL, Tree.PlainL] at hp ⊢
    exact ⟨insT_plain ht hn t hp.1, insL_plain ht hn ts hp.2⟩
end

mutual
theorem insT_depth (tgt n : Int) (new : Nat) (op : Op) : ∀ t : Tree, (insT tgt (.lst new op [.int tgt, .int n]) t).depth ≤ t.depth + 1
  | .int m => by simp only [insT]; split <;> simp [Tree.depth, Tree.depthL]
  | .boo _ _ _ => by simp [insT, Tree.depth]
  | .lst a o ts => by simp only [insT, Tree.depth]; have := insL_depth tgt n new op ts; omega
theorem insL_depth (tgt n : Int) (new : Nat) (op : Op) : ∀ ts : List Tree, Tree.depthL (insL tgt (.lst new op [.int tgt, .int n]) ts) ≤ Tree.depthL ts + 1
  | [] => by simp [insL, Tree.depthL]
  | t :: ts => by
    simp only [insL, Tree.depthL]
    have := insT_depth tgt n new op t
    have := insL_depth tgt n new op ts
    omega
end

mutual
theorem insT_sem (tgt n : Int) (new : Nat) (σ : Side) (op : Op) (x : Bool) (hx : (Tree.lst new op [.int tgt, .int n]).sem σ = x) :
    ∀ t : Tree, (insT tgt (.lst new op [.int tgt, .int n]) t).sem σ = t.semIns σ tgt x
  | .int m => by
    simp only [insT, Tree.semIns]; split
    · exact hx
    · rfl
  | .boo _ _ _ => by simp [insT, Tree.sem, Tree.semIns]
  | .lst a .and ts => by simp only [insT, Tree.sem, Tree.semIns]; exact insL_semAll tgt n new σ op x hx ts
  | .lst a .or ts => by simp only [insT, Tree.sem, Tree.semIns]; exact insL_semAny tgt n new σ op x hx ts
theorem insL_semAll (tgt n : Int) (new : Nat) (σ : Side) (op : Op) (x : Bool) (hx : (Tree.lst new op [.int tgt, .int n]).sem σ = x) :
    ∀ ts : List Tree, Tree.semAll σ (insL tgt (.lst new op [.int tgt, .int n]) ts) = Tree.semInsAll σ tgt x ts
  | [] => by simp [insL, Tree.semAll, Tree.semInsAll]
  | t :: ts => by simp only [insL, Tree.semAll, Tree.semInsAll, insT_sem tgt n new σ op x hx t, insL_semAll tgt n new σ op x hx ts]
theorem insL_semAny (tgt n : Int) (new : Nat) (σ : Side) (op : Op) (x : Bool) (hx : (Tree.lst new op [.int tgt, .int n]).sem σ = x) :
    ∀ ts : List Tree, Tree.semAny σ (insL tgt (.lst new op [.int tgt, .int n]) ts) = Tree.semInsAny σ tgt x ts
  | [] => by simp [insL, Tree.semAny, Tree.semInsAny]
  | t :: ts => by simp only [insL, Tree.semAny, Tree.semInsAny, insT_sem tgt n new σ op x hx t, insL_semAny tgt n new σ op x hx ts]
end

mutual
theorem insT_count (tgt n : Int) (new : Nat) (op : Op) (b : Nat) : ∀ t : Tree,
    (insT tgt (.lst new op [.int tgt, .int n]) t).addrs.count b = t.addrs.count b + if b = new then t.places tgt else 0
  | .int m => by
    simp only [insT, Tree.places]
    by_cases hm : m = tgt
    · by_cases hb : b = new
      · simp [hm, hb, Tree.addrs, Tree.addrsL]
      · simp [hm, hb, Ne.symm hb, Tree.addrs, Tree.addrsL, List.count_cons]
    · simp [hm, Tree.addrs]
  | .boo _ _ _ => by simp [insT, Tree.places]
  | .lst a o ts => by
    simp only [insT, Tree.addrs, Tree.places, List.count_cons, insL_count tgt n new op b ts]; omega
theorem insL_count (tgt n : Int) (new : Nat) (op : Op) (b : Nat) : ∀ ts : List Tree,
    (Tree.addrsL (insL tgt (.lst new op [.int tgt, .int n]) ts)).count b = (Tree.addrsL ts).count b + if b = new then Tree.placesL tgt ts else 0
  | [] => by simp [insL, Tree.addrsL, Tree.placesL]
  | t :: ts => by
    simp only [insL, Tree.addrsL, Tree.placesL, List.count_append, insT_count tgt n new op b t, insL_count tgt n new op b ts]
    split <;> omega
end

end Geouned.Alias
