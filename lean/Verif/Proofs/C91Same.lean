import Verif.Spec.C91

/-! The cursor with notes is the cursor. -/
namespace Verif.C91
open Spec Io Reads
open Cursor (CPart)

theorem bind_map {α β γ : Type} (x : Res α) (g : α → β) (f : β → Res γ) :
    (x.map g).bind f = x.bind fun a => f (g a) := by cases x <;> rfl

theorem map_bind {α β γ : Type} (x : Res α) (f : α → Res β) (g : β → γ) :
    (x.bind f).map g = x.bind fun a => (f a).map g := by cases x <;> rfl

theorem bind_cong {α β : Type} {x : Res α} {f g : α → Res β} (h : ∀ a, f a = g a) : x.bind f = x.bind g := by
  cases x <;> simp [Res.bind, h]

theorem map_ok {α β : Type} (a : α) (g : α → β) : (Res.ok a).map g = .ok (g a) := rfl

theorem file_open (cs : Codecs) (mc : MemCmp) (id : Nat) (p : PartFile) (key : Option Event) :
    (PartIterator.open_ cs mc p key).map (·.1) = (File.open_ cs mc id p key).map (·.it) := by
  unfold PartIterator.open_ File.open_
  rw [map_bind, map_bind]
  refine bind_cong fun ii => ?_
  cases ii.current with
  | none => rfl
  | some r =>
    dsimp only
    rw [map_bind, map_bind]
    refine bind_cong fun region => ?_
    rw [map_bind, map_bind]
    exact bind_cong fun _ => rfl

theorem file_skip (cs : Codecs) (mc : MemCmp) : ∀ (n : Nat) (f : File),
    PartIterator.skip cs mc n f.it = (File.skip cs mc n f).map (·.it) := by
  intro n
  induction n with
  | zero =>
    intro f
    rw [PartIterator.skip.eq_def, File.skip.eq_def]
    cases f.it.at_ with
    | some e => rfl
    | none =>
      dsimp only
      rw [map_bind]
      refine bind_cong fun ii => ?_
      cases ii.current <;> rfl
  | succ n ih =>
    intro f
    rw [PartIterator.skip.eq_def, File.skip.eq_def]
    cases f.it.at_ with
    | some e => rfl
    | none =>
      dsimp only
      rw [map_bind]
      refine bind_cong fun ii => ?_
      cases ii.current with
      | none => rfl
      | some r =>
        dsimp only
        rw [map_bind]
        refine bind_cong fun region => ?_
        rw [map_bind]
        refine bind_cong fun ri => ?_
        exact ih { f with it := { f.it with index_it := ii, region_it := some ri.1 }, log := f.log ++ [⟨f.part, ii.pos, r⟩] }

theorem file_next (cs : Codecs) (mc : MemCmp) (f : File) :
    PartIterator.next cs mc f.it = (File.next cs mc f).map (·.it) := by
  unfold PartIterator.next File.next
  cases f.it.index_it.current with
  | none => rfl
  | some r =>
    cases f.it.region_it with
    | none => rfl
    | some ri =>
      dsimp only
      rw [map_bind]
      refine bind_cong fun ri => ?_
      exact file_skip cs mc _ { f with it := { f.it with region_it := some ri } }

theorem fns_at (cs : Codecs) (mc : MemCmp) (s : Src) : (Cursor.fns cs mc).at' (bareSrc s) = (fns cs mc).at' s := by
  cases s <;> rfl

theorem fns_next (cs : Codecs) (mc : MemCmp) (s : Src) :
    (Cursor.fns cs mc).next (bareSrc s) = ((fns cs mc).next s).map bareSrc := by
  cases s with
  | mem m it =>
    show (Memtable.iterNext m it).bind _ = Res.map _ ((Memtable.iterNext m it).bind _)
    rw [map_bind]; exact bind_cong fun _ => rfl
  | file f =>
    show (PartIterator.next cs mc f.it).bind _ = Res.map _ ((f.next cs mc).bind _)
    rw [file_next, bind_map, map_bind]; exact bind_cong fun _ => rfl

/-- The references without the notes. -/
def bareRef (r : MergeRef Src) : MergeRef Cursor.Src := ⟨bareSrc r.it, r.advance⟩

theorem advance_same (cs : Codecs) (mc : MemCmp) : ∀ l : List (MergeRef Src),
    Merge.advanceAll (Cursor.fns cs mc) (l.map bareRef) = (Merge.advanceAll (fns cs mc) l).map (·.map bareRef) := by
  intro l
  induction l with
  | nil => rfl
  | cons r l ih =>
    rw [List.map_cons, Merge.advanceAll, Merge.advanceAll, map_bind, ih]
    by_cases h : r.advance = true
    · rw [if_pos h, if_pos (by exact h)]
      show ((((Cursor.fns cs mc).next (bareSrc r.it)).bind _).bind _) = _
      rw [fns_next, bind_map]
      cases (fns cs mc).next r.it with
      | ok s =>
        simp only [Res.bind_ok]
        rw [bind_map, map_bind]
        exact bind_cong fun _ => rfl
      | err m => rfl
      | abort m => rfl
      | ub m => rfl
    · rw [if_neg h, if_neg (by exact h)]
      simp only [Res.bind_ok]
      rw [bind_map, map_bind]
      exact bind_cong fun _ => rfl

theorem clear_same (l : List (MergeRef Src)) : Merge.clear (l.map bareRef) = (Merge.clear l).map bareRef := by
  unfold Merge.clear
  rw [List.map_map, List.map_map]; rfl

theorem pick_same (cs : Codecs) (mc : MemCmp) : ∀ (n : Nat) (done todo : List (MergeRef Src)) (min : Option (Nat × Event)),
    Merge.pick mc (Cursor.fns cs mc) n (done.map bareRef) (todo.map bareRef) min =
      (((Merge.pick mc (fns cs mc) n done todo min).1).map bareRef, (Merge.pick mc (fns cs mc) n done todo min).2) := by
  intro n
  induction n with
  | zero => intro done todo min; simp [Merge.pick]
  | succ n ih =>
    intro done todo min
    cases todo with
    | nil => rfl
    | cons r todo =>
      rw [List.map_cons, Merge.pick, Merge.pick]
      have e1 : (Cursor.fns cs mc).at' (bareRef r).it = (fns cs mc).at' r.it := fns_at cs mc r.it
      rw [e1]
      have g0 : done.map bareRef ++ [bareRef r] = (done ++ [r]).map bareRef := by simp
      have g1 : done.map bareRef ++ [{ bareRef r with advance := true }] =
          (done ++ [{ r with advance := true }]).map bareRef := by simp [bareRef]
      have g2 : (Merge.clear done).map bareRef ++ [{ bareRef r with advance := true }] =
          (Merge.clear done ++ [{ r with advance := true }]).map bareRef := by simp [bareRef]
      cases (fns cs mc).at' r.it with
      | none =>
        dsimp only
        rw [g0, ih]
      | some row =>
        dsimp only
        cases min with
        | none =>
          dsimp only
          rw [g1, ih, List.length_map]
        | some p =>
          dsimp only
          by_cases h0 : compare mc p.2 row = 0
          · rw [if_pos h0, if_pos h0, g1, ih]
          · rw [if_neg h0, if_neg h0]
            by_cases h1 : compare mc p.2 row > 0
            · rw [if_pos h1, if_pos h1, clear_same, clear_same, g2, ih, List.length_map]
            · rw [if_neg h1, if_neg h1, g0, ih]

theorem merge_same (cs : Codecs) (mc : MemCmp) (m : Merge Src) :
    Merge.next mc (Cursor.fns cs mc) (bareMerge m) = (Merge.next mc (fns cs mc) m).map bareMerge := by
  unfold Merge.next
  rw [map_bind]
  show (Merge.advanceAll (Cursor.fns cs mc) (m.list.map bareRef)).bind _ = _
  rw [advance_same, bind_map]
  refine bind_cong fun l => ?_
  have := pick_same cs mc l.length [] l none
  rw [List.map_nil] at this
  rw [List.length_map, this]
  rfl

theorem add_same (m : Merge Src) (s : Src) : (bareMerge m).add (bareSrc s) = bareMerge (m.add s) := by
  simp [bareMerge, Merge.add]

theorem addMem_same (mc : MemCmp) (m : Memtable) (key : Option Event) (mi : Merge Src) :
    Cursor.addMem mc m key (bareMerge mi) = (addMem mc m key mi).map bareMerge := by
  unfold Cursor.addMem addMem
  by_cases h : m.count > 0
  · rw [if_pos h, if_pos h, map_bind]
    refine bind_cong fun x => ?_
    exact congrArg Res.ok (add_same mi (.mem m x.1))
  · rw [if_neg h, if_neg h]; rfl

theorem addFile_same (cs : Codecs) (mc : MemCmp) (id : Nat) (f : Option PartFile) (key : Option Event) (mi : Merge Src) :
    Cursor.addFile cs mc f key (bareMerge mi) = (addFile cs mc id f key mi).map bareMerge := by
  unfold Cursor.addFile addFile
  cases f with
  | none => rfl
  | some p =>
    dsimp only
    have h := file_open cs mc id p key
    have e1 : ((PartIterator.open_ cs mc p key).bind fun x => Res.ok ((bareMerge mi).add (.file x.1))) =
        ((PartIterator.open_ cs mc p key).map (·.1)).bind fun it => .ok ((bareMerge mi).add (.file it)) := by
      rw [bind_map]
    rw [map_bind]
    refine e1.trans ?_
    rw [h, bind_map]
    exact bind_cong fun f => congrArg Res.ok (add_same mi (.file f))

theorem partOpen_same (cs : Codecs) (mc : MemCmp) (s : Slice CPart) (key : Option Event) :
    Cursor.partOpen cs mc s.val key = (partOpen cs mc s key).map bareMerge := by
  unfold Cursor.partOpen partOpen
  have h0 : (Merge.init : Merge Cursor.Src) = bareMerge Merge.init := rfl
  rw [h0, addMem_same, bind_map, map_bind]
  refine bind_cong fun m1 => ?_
  rw [addMem_same, bind_map, map_bind]
  refine bind_cong fun m2 => ?_
  rw [addFile_same cs mc s.min, bind_map, map_bind]
  exact bind_cong fun m3 => merge_same cs mc m3

theorem openPart_same (cs : Codecs) (mc : MemCmp) (db : Mapping CPart) (min : Nat) (key : Option Event) (past : List Read) :
    Cursor.openPart cs mc db min key = (openPart cs mc db min key past).map bare := by
  unfold Cursor.openPart openPart
  rw [map_bind]
  refine bind_cong fun o => ?_
  cases o with
  | none => rfl
  | some x =>
    dsimp only
    rw [partOpen_same, bind_map, map_bind]
    exact bind_cong fun _ => rfl

theorem next_same (cs : Codecs) (mc : MemCmp) (db : Mapping CPart) (c : ECursor) :
    Cursor.next cs mc db (bare c) = (next cs mc db c).map bare := by
  unfold Cursor.next next
  cases h : c.ref with
  | none =>
    have : (bare c).ref = none := h
    rw [this]; rfl
  | some s =>
    have : (bare c).ref = some s := h
    rw [this]
    dsimp only
    show (Merge.next mc (Cursor.fns cs mc) (bareMerge c.cursor)).bind _ = _
    rw [merge_same, bind_map, map_bind]
    refine bind_cong fun mi => ?_
    by_cases hm : mi.has = true
    · rw [if_pos hm, if_pos (by exact hm)]
      show Res.ok _ = Res.ok _
      simp [bare, h]
    · rw [if_neg hm, if_neg (by exact hm)]
      exact openPart_same cs mc db _ none _

theorem open_same (cs : Codecs) (mc : MemCmp) (db : Mapping CPart) (key : Option Event) :
    Cursor.open_ cs mc db key = (open_ cs mc db key).map bare := by
  unfold Cursor.open_ open_
  dsimp only
  rw [openPart_same cs mc db _ key [], bind_map, map_bind]
  refine bind_cong fun c => ?_
  by_cases h : c.ref.isSome ∧ c.cursor.has = false
  · rw [if_pos h, if_pos (by exact h)]
    exact next_same cs mc db c
  · rw [if_neg h, if_neg (by exact h)]
    rfl

end Verif.C91
