import Verif.Spec.C95
import Verif.Proofs.C80

/-! Proofs for C95. -/
namespace Verif.C95
open Reopen Reach Parse
open Settings (Storage)

/-- The address has the partition in it. -/
theorem place_min {c c' : CloudConfig} {s s' : Source} {m m' : Nat} (h : place c s m = place c' s' m') : m = m' := by
  unfold place at h
  split at h <;> split at h <;> injection h

theorem put_same {α β : Type} [DecidableEq α] (f : α → β) (a : α) (b : β) : put f a b a = b := by simp [put]

theorem put_other {α β : Type} [DecidableEq α] (f : α → β) {a x : α} (b : β) (h : x ≠ a) : put f a b x = f x := by simp [put, h]

/-- No two of the lists have an element in common. -/
def Apart (l : List (List Nat)) : Prop := l.Pairwise fun a b => ∀ x ∈ a, x ∉ b

/-- The storage has its partitions in a cloud that is there, and they are where it says. -/
def Held (w : World) (s : Storage) (min : Nat) : Prop :=
  ∃ n c, s.cloud = some n ∧ find_cloud w.st.clouds n = some c ∧
    (w.asked min = false → w.stored (place c s.source min) = some (w.file min))

structure Inv (w : World) : Prop where
  apart : Apart (w.st.storages.map (·.parts))
  held : ∀ s ∈ w.st.storages, ∀ min ∈ s.parts, w.up min = true → Held w s min
  linked : Linked w.st

theorem inv_found {w : World} (h : Inv w) : Found w := by
  intro s hs min hm hu ha
  obtain ⟨n, c, h1, h2, h3⟩ := h.held s hs min hm hu
  simp only [fetch, address, h1, h2, Res.bind_ok, h3 ha]

theorem apart_index : ∀ {l : List (List Nat)}, Apart l → ∀ (i j : Nat) (a b : List Nat), l[i]? = some a → l[j]? = some b →
    ∀ x ∈ a, x ∈ b → i = j
  | [], _, _, _, _, _, hi, _, _, _, _ => by simp at hi
  | c :: l, h, i, j, a, b, hi, hj, x, ha, hb => by
    obtain ⟨h1, h2⟩ := List.pairwise_cons.1 h
    cases i with
    | zero =>
      cases j with
      | zero => rfl
      | succ j =>
        simp only [List.getElem?_cons_zero, Option.some.injEq, List.getElem?_cons_succ] at hi hj
        subst hi
        exact absurd hb (h1 b (List.mem_of_getElem? hj) x ha)
    | succ i =>
      cases j with
      | zero =>
        simp only [List.getElem?_cons_zero, Option.some.injEq, List.getElem?_cons_succ] at hi hj
        subst hj
        exact absurd ha (h1 a (List.mem_of_getElem? hi) x hb)
      | succ j =>
        simp only [List.getElem?_cons_succ] at hi hj
        rw [apart_index h2 i j a b hi hj x ha hb]

theorem inv_single {w : World} (h : Inv w) : Single w := by
  refine ⟨fun i j s t hs ht min hm hm' => ?_, fun s hs min hm hu => ?_⟩
  · exact apart_index h.apart i j s.parts t.parts (by simp [hs]) (by simp [ht]) min hm hm'
  · obtain ⟨n, c, h1, h2, _⟩ := h.held s hs min hm hu
    exact ⟨place c s.source min, by simp only [address, h1, h2]⟩

/-- Storages of the same partition are the same. -/
theorem apart_eq {l : List Storage} (h : Apart (l.map (·.parts))) {s t : Storage} (hs : s ∈ l) (ht : t ∈ l) {x : Nat}
    (h1 : x ∈ s.parts) (h2 : x ∈ t.parts) : s = t := by
  obtain ⟨i, hi⟩ := List.mem_iff_getElem?.1 hs
  obtain ⟨j, hj⟩ := List.mem_iff_getElem?.1 ht
  have := apart_index h i j s.parts t.parts (by simp [hi]) (by simp [hj]) x h1 h2
  subst this
  rw [hi] at hj
  exact Option.some.inj hj

theorem holder_some {w : World} {min : Nat} {s : Storage} (h : holder w min = some s) : s ∈ w.st.storages ∧ min ∈ s.parts := by
  unfold holder at h
  exact ⟨List.mem_of_find?_eq_some h, by simpa using List.find?_some h⟩

theorem holder_none {w : World} {min : Nat} (h : holder w min = none) : ∀ s ∈ w.st.storages, min ∉ s.parts := by
  intro s hs
  have := List.find?_eq_none.1 h s hs
  simpa using this

/-! ### Changing one storage -/

theorem change_parts {name : Bytes} {f : Storage → Storage} (hf : ∀ s, (f s).parts = s.parts) :
    ∀ l : List Storage, (Settings.change name f l).map (·.parts) = l.map (·.parts)
  | [] => rfl
  | s :: l => by
    unfold Settings.change
    split
    · simp [hf]
    · simp [change_parts hf l]

theorem mem_change {name : Bytes} {f : Storage → Storage} {t : Storage} : ∀ {l : List Storage}, t ∈ Settings.change name f l →
    t ∈ l ∨ ∃ s, Settings.find l name = some s ∧ s ∈ l ∧ t = f s
  | [], h => by cases h
  | s :: l, h => by
    unfold Settings.change at h
    by_cases e : s.source.name = name
    · rw [if_pos e] at h
      rcases List.mem_cons.1 h with rfl | h
      · exact .inr ⟨s, by simp [Settings.find, e], List.mem_cons_self, rfl⟩
      · exact .inl (List.mem_cons_of_mem _ h)
    · rw [if_neg e] at h
      rcases List.mem_cons.1 h with rfl | h
      · exact .inl List.mem_cons_self
      · rcases mem_change h with h | ⟨u, h1, h2, h3⟩
        · exact .inl (List.mem_cons_of_mem _ h)
        · refine .inr ⟨u, ?_, List.mem_cons_of_mem _ h2, h3⟩
          unfold Settings.find at h1 ⊢
          rw [List.find?_cons_of_neg (by simpa using e)]
          exact h1

theorem parts_map {g : Storage → Storage} (hg : ∀ s, (g s).parts = s.parts) (l : List Storage) :
    (l.map g).map (·.parts) = l.map (·.parts) := by
  rw [List.map_map]
  exact List.map_congr_left fun s _ => hg s

theorem unlink_sub (name : Bytes) : ∀ l : List Storage, (Settings.unlink name l).Sublist l
  | [] => List.Sublist.refl _
  | s :: l => by
    unfold Settings.unlink
    split
    · exact List.sublist_cons_self s l
    · exact (unlink_sub name l).cons_cons s

theorem take_sub {min : Nat} {l : List Storage} (h : Apart (l.map (·.parts))) : Apart ((take min l).map (·.parts)) := by
  unfold Apart take at *
  rw [List.map_map, List.pairwise_map]
  rw [List.pairwise_map] at h
  refine h.imp ?_
  intro a b h x hx hx'
  simp only [Function.comp, List.mem_filter] at hx hx'
  exact h x hx.1 hx'.1

theorem mem_take {min : Nat} {l : List Storage} {t : Storage} (h : t ∈ take min l) :
    ∃ s ∈ l, t.source = s.source ∧ t.cloud = s.cloud ∧ ∀ x, x ∈ t.parts ↔ x ∈ s.parts ∧ x ≠ min := by
  obtain ⟨s, hs, rfl⟩ := List.mem_map.1 h
  exact ⟨s, hs, rfl, rfl, fun x => by simp⟩

theorem give_apart {name : Bytes} {min : Nat} : ∀ {l : List Storage}, Apart (l.map (·.parts)) → (∀ s ∈ l, min ∉ s.parts) →
    Apart ((give name min l).map (·.parts))
  | [], _, _ => List.Pairwise.nil
  | s :: l, h, hm => by
    unfold Apart at h
    rw [List.map_cons, List.pairwise_cons] at h
    unfold give Settings.change
    split
    · unfold Apart
      rw [List.map_cons, List.pairwise_cons]
      refine ⟨fun b hb x hx => ?_, h.2⟩
      obtain ⟨t, ht, rfl⟩ := List.mem_map.1 hb
      rcases List.mem_cons.1 hx with rfl | hx
      · exact hm t (List.mem_cons_of_mem _ ht)
      · exact h.1 _ hb x hx
    · unfold Apart
      rw [List.map_cons, List.pairwise_cons]
      refine ⟨fun b hb x hx => ?_, give_apart h.2 fun t ht => hm t (List.mem_cons_of_mem _ ht)⟩
      obtain ⟨t, ht, rfl⟩ := List.mem_map.1 hb
      rcases mem_change ht with ht | ⟨u, _, hu, rfl⟩
      · exact h.1 _ (List.mem_map_of_mem ht) x hx
      · intro hx'
        rcases List.mem_cons.1 hx' with rfl | hx'
        · exact hm s List.mem_cons_self hx
        · exact h.1 _ (List.mem_map_of_mem hu) x hx hx'

theorem mem_give {name : Bytes} {min : Nat} {l : List Storage} {t : Storage} (h : t ∈ give name min l) :
    ∃ s ∈ l, t.source = s.source ∧ t.cloud = s.cloud ∧ ∀ x, x ∈ t.parts → x = min ∨ x ∈ s.parts := by
  rcases mem_change h with h | ⟨u, _, hu, rfl⟩
  · exact ⟨t, h, rfl, rfl, fun x hx => .inr hx⟩
  · exact ⟨u, hu, rfl, rfl, fun x hx => by simpa using hx⟩

/-! ### Commands -/

/-- What a command keeps: partitions in the cloud keep their addresses. -/
structure Kept (up : Nat → Bool) (st st' : Reopen.St) : Prop where
  apart : Apart (st.storages.map (·.parts)) → Apart (st'.storages.map (·.parts))
  held : ∀ t ∈ st'.storages, ∀ min ∈ t.parts, up min = true → ∃ s ∈ st.storages, min ∈ s.parts ∧
    ∀ n c, s.cloud = some n → find_cloud st.clouds n = some c →
      ∃ n' c', t.cloud = some n' ∧ find_cloud st'.clouds n' = some c' ∧ place c' t.source min = place c s.source min
  linked : Linked st → Linked st'

theorem kept_refl (up : Nat → Bool) (st : Reopen.St) : Kept up st st :=
  ⟨id, fun t ht min hm _ => ⟨t, ht, hm, fun n c h1 h2 => ⟨n, c, h1, h2, rfl⟩⟩, id⟩

/-- Only clouds and storages matter. -/
theorem kept_of {up : Nat → Bool} {st st' st'' : Reopen.St} (h : Kept up st st') (hc : st''.clouds = st'.clouds)
    (hs : st''.storages = st'.storages) : Kept up st st'' := by
  obtain ⟨h1, h2, h3⟩ := h
  refine ⟨by rw [hs]; exact h1, ?_, fun hl => ?_⟩
  · rw [hs, hc]
    exact h2
  · unfold Linked
    rw [hs, hc]
    exact h3 hl

theorem kept_trans {up : Nat → Bool} {a b c : Reopen.St} (h : Kept up a b) (h' : Kept up b c) : Kept up a c := by
  refine ⟨fun x => h'.apart (h.apart x), fun t ht min hm hu => ?_, fun hl => h'.linked (h.linked hl)⟩
  obtain ⟨s, hs, hm', k⟩ := h'.held t ht min hm hu
  obtain ⟨r, hr, hm'', k'⟩ := h.held s hs min hm' hu
  refine ⟨r, hr, hm'', fun n d h1 h2 => ?_⟩
  obtain ⟨n', d', h3, h4, h5⟩ := k' n d h1 h2
  obtain ⟨n'', d'', h6, h7, h8⟩ := k n' d' h3 h4
  exact ⟨n'', d'', h6, h7, h8.trans h5⟩

theorem saved_kept {up : Nat → Bool} {m : Machine} {st : Reopen.St} {r : Res Unit × Reopen.St} (h : Kept up st r.2) :
    Kept up st (saved m r).2 := by
  obtain ⟨r1, st'⟩ := r
  cases r1 <;> try exact h
  unfold saved save
  dsimp only
  split
  · exact kept_of h rfl rfl
  all_goals exact h

theorem find_append {l : List CloudConfig} {c : CloudConfig} {n : Bytes} {d : CloudConfig} (h : find_cloud l n = some d) :
    find_cloud (l ++ [c]) n = some d := by
  unfold find_cloud at *
  rw [List.find?_append, h]; rfl

theorem cloud_create_kept (up : Nat → Bool) (st : Reopen.St) (c : CloudConfig) (b : Bool) : Kept up st (Reopen.cloud_create st c b).2 := by
  unfold Reopen.cloud_create
  split
  · split <;> exact kept_refl _ _
  · split
    · rename_i c' _
      refine ⟨id, fun t ht min hm _ => ⟨t, ht, hm, fun n d h1 h2 => ⟨n, d, h1, ?_, rfl⟩⟩, fun hl s hs n hn => ?_⟩
      · exact find_append h2
      · obtain ⟨d, hd⟩ := hl s hs n hn
        exact ⟨d, find_append hd⟩
    all_goals exact kept_refl _ _

theorem find_unlink {name n : Bytes} (hn : n ≠ name) : ∀ l : List CloudConfig, find_cloud (Reopen.unlink name l) n = find_cloud l n
  | [] => rfl
  | c :: l => by
    unfold Reopen.unlink
    by_cases e : c.name = name
    · rw [if_pos e]
      unfold find_cloud
      rw [List.find?_cons_of_neg]
      simp only [beq_iff_eq]
      intro e'
      exact hn (e'.symm.trans e)
    · rw [if_neg e]
      unfold find_cloud
      by_cases e' : c.name = n
      · rw [List.find?_cons_of_pos (by simpa using e'), List.find?_cons_of_pos (by simpa using e')]
      · rw [List.find?_cons_of_neg (by simpa using e'), List.find?_cons_of_neg (by simpa using e')]
        exact find_unlink hn l

theorem cloud_drop_kept (up : Nat → Bool) (st : Reopen.St) (n : Bytes) (b : Bool) : Kept up st (Reopen.cloud_drop st n b).2 := by
  unfold Reopen.cloud_drop
  split
  · split <;> exact kept_refl _ _
  · split
    · exact kept_refl _ _
    · rename_i h
      have hk : ∀ t ∈ st.storages, ∀ n' d, t.cloud = some n' → find_cloud st.clouds n' = some d →
          find_cloud (Reopen.unlink n st.clouds) n' = some d := by
        intro t ht n' d h1 h2
        rw [find_unlink ?_ _]
        · exact h2
        · intro e
          subst e
          apply h
          rw [List.any_eq_true]
          exact ⟨t, ht, by simp [h1]⟩
      refine ⟨id, fun t ht min hm _ => ⟨t, ht, hm, fun n' d h1 h2 => ⟨n', d, h1, hk t ht n' d h1 h2, rfl⟩⟩, fun hl t ht n' hn => ?_⟩
      obtain ⟨d, hd⟩ := hl t ht n' hn
      exact ⟨d, hk t ht n' d hn hd⟩

/-- After a change of the cloud `name` into one of the name `new`. -/
theorem find_change_same {name new : Bytes} {f : CloudConfig → CloudConfig} (hf : ∀ c, c.name = name → (f c).name = new) :
    ∀ {l : List CloudConfig} {d : CloudConfig}, find_cloud l name = some d → (new = name ∨ find_cloud l new = none) →
      find_cloud (Reopen.change name f l) new = some (f d)
  | [], _, h, _ => by cases h
  | c :: l, d, h, hn => by
    unfold Reopen.change
    by_cases e : c.name = name
    · rw [if_pos e]
      unfold find_cloud at h ⊢
      rw [List.find?_cons_of_pos (by simpa using e)] at h
      cases h
      rw [List.find?_cons_of_pos (by simpa using hf c e)]
    · rw [if_neg e]
      unfold find_cloud at h
      rw [List.find?_cons_of_neg (by simpa using e)] at h
      have hc : c.name ≠ new := by
        rcases hn with rfl | hn
        · exact e
        · intro e'
          unfold find_cloud at hn
          rw [List.find?_cons_of_pos (by simpa using e')] at hn
          cases hn
      have := find_change_same hf h (hn.imp id fun hn => by
        unfold find_cloud at hn ⊢
        rwa [List.find?_cons_of_neg (by simpa using hc)] at hn)
      unfold find_cloud at this ⊢
      rw [List.find?_cons_of_neg (by simpa using hc)]
      exact this

theorem find_change_other {name new n : Bytes} {f : CloudConfig → CloudConfig} (hf : ∀ c, c.name = name → (f c).name = new)
    (h1 : n ≠ name) (h2 : n ≠ new) : ∀ l : List CloudConfig, find_cloud (Reopen.change name f l) n = find_cloud l n
  | [] => rfl
  | c :: l => by
    unfold Reopen.change
    by_cases e : c.name = name
    · rw [if_pos e]
      unfold find_cloud
      rw [List.find?_cons_of_neg, List.find?_cons_of_neg]
      · simp only [beq_iff_eq, e]; exact fun h => h1 h.symm
      · simp only [beq_iff_eq, hf c e]; exact fun h => h2 h.symm
    · rw [if_neg e]
      have := find_change_other hf h1 h2 l
      unfold find_cloud at this ⊢
      by_cases e' : c.name = n
      · rw [List.find?_cons_of_pos (by simpa using e'), List.find?_cons_of_pos (by simpa using e')]
      · rw [List.find?_cons_of_neg (by simpa using e'), List.find?_cons_of_neg (by simpa using e')]
        exact this

theorem cloud_alter_kept (up : Nat → Bool) (st : Reopen.St) (c : CloudConfig) (mask : Nat) (b : Bool) (h1 : mask.testBit 1 = false)
    (hc : mask.testBit 4 = true → ∀ d, find_cloud st.clouds c.name = some d → d.type = str (Lex.bytes "mock") ∨
        ∀ s ∈ st.storages, s.cloud = some c.name → ∀ min ∈ s.parts, up min = false) :
    Kept up st (Reopen.cloud_alter st c mask b).2 := by
  unfold Reopen.cloud_alter
  split
  · split <;> exact kept_refl _ _
  · rename_i d hd
    have hf : ∀ e : CloudConfig, e.name = c.name → (cloud_config_alter e c mask).name = c.name := by
      intro e he
      simp only [cloud_config_alter]
      split
      · rfl
      · exact he
    refine ⟨id, fun t ht min hm hu => ⟨t, ht, hm, fun n e h3 h4 => ?_⟩, fun hl t ht n hn => ?_⟩
    rotate_left
    · by_cases e : n = c.name
      · subst e
        exact ⟨_, find_change_same hf hd (.inl rfl)⟩
      · obtain ⟨d', hd'⟩ := hl t ht n hn
        exact ⟨d', (find_change_other hf e e _).trans hd'⟩
    by_cases hn : n = c.name
    · subst hn
      rw [hd] at h4
      cases h4
      refine ⟨c.name, cloud_config_alter d c mask, h3, find_change_same hf hd (.inl rfl), ?_⟩
      unfold place
      have ht : (cloud_config_alter d c mask).type = d.type := by simp [cloud_config_alter, h1]
      rw [ht]
      split
      · rfl
      · rename_i hm'
        cases h5 : mask.testBit 4 with
        | false => simp [cloud_config_alter, h5]
        | true =>
          rcases hc h5 d hd with h | h
          · exact absurd h hm'
          · rw [h t (by assumption) h3 min hm] at hu
            cases hu
    · exact ⟨n, e, h3, (find_change_other hf hn hn _).trans h4, rfl⟩

theorem cloud_rename_kept (up : Nat → Bool) (st : Reopen.St) (name new : Bytes) (b : Bool) :
    Kept up st (Reopen.cloud_rename st name new b).2 := by
  unfold Reopen.cloud_rename
  split
  · split <;> exact kept_refl _ _
  · rename_i d hd
    split
    · exact kept_refl _ _
    · rename_i hnew
      have hf : ∀ e : CloudConfig, e.name = name → ({ e with name := new } : CloudConfig).name = new := fun _ _ => rfl
      refine ⟨fun h => ?_, fun t ht min hm hu => ?_, fun hl t ht n hn => ?_⟩
      rotate_right
      · obtain ⟨s, hs, rfl⟩ := List.mem_map.1 ht
        by_cases e : s.cloud = some name
        · rw [if_pos e] at hn
          cases hn
          exact ⟨_, find_change_same hf hd (.inr hnew)⟩
        · rw [if_neg e] at hn
          obtain ⟨d', hd'⟩ := hl s hs n hn
          have hn1 : n ≠ name := by
            rintro rfl
            exact e hn
          have hn2 : n ≠ new := by
            rintro rfl
            rw [hnew] at hd'
            cases hd'
          exact ⟨d', (find_change_other hf hn1 hn2 _).trans hd'⟩
      · show Apart ((st.storages.map _).map _)
        rw [parts_map]
        · exact h
        · intro s; split <;> rfl
      · obtain ⟨s, hs, rfl⟩ := List.mem_map.1 ht
        by_cases e : s.cloud = some name
        · rw [if_pos e] at hm ⊢
          refine ⟨s, hs, hm, fun n c h1 h2 => ?_⟩
          rw [e] at h1
          cases h1
          rw [hd] at h2
          cases h2
          exact ⟨new, { d with name := new }, rfl, find_change_same hf hd (.inr hnew), rfl⟩
        · rw [if_neg e] at hm ⊢
          refine ⟨s, hs, hm, fun n c h1 h2 => ⟨n, c, h1, ?_, rfl⟩⟩
          have hn : n ≠ name := by
            rintro rfl
            exact e h1
          have hn' : n ≠ new := by
            rintro rfl
            rw [hnew] at h2
            cases h2
          exact (find_change_other hf hn hn' _).trans h2

theorem rename_sources_kept (up : Nat → Bool) (st : Reopen.St) (name new : Bytes) : Kept up st (rename_cloud st name new) := by
  refine ⟨fun h => ?_, fun t ht min hm hu => ?_, fun hl t ht n hn => ?_⟩
  rotate_right
  · obtain ⟨s, hs, rfl⟩ := List.mem_map.1 ht
    refine hl s hs n ?_
    revert hn
    split <;> exact id
  · show Apart ((st.storages.map _).map _)
    rw [parts_map]
    · exact h
    · intro s; split <;> rfl
  · obtain ⟨s, hs, rfl⟩ := List.mem_map.1 ht
    refine ⟨s, hs, ?_, fun n c h1 h2 => ⟨n, c, ?_, h2, ?_⟩⟩
    · revert hm; split <;> exact id
    · split <;> exact h1
    · split <;> rfl

/-- An operation on storages. -/
theorem through_kept {up : Nat → Bool} {st : Reopen.St} {r : Res Unit × Settings.St}
    (h : Kept up st { st with storages := r.2.storages }) : Kept up st (through st r).2 := by
  unfold through
  split
  · exact kept_refl _ _
  · exact kept_of h rfl rfl

theorem set_cloud_found {st : Reopen.St} {c : Source} {b : Bool} {cloud : Option Bytes}
    (h : Settings.set_cloud (view st).clouds c b = .ok cloud) : ∀ n, cloud = some n → ∃ d, find_cloud st.clouds n = some d := by
  unfold Settings.set_cloud at h
  intro n hn
  subst hn
  split at h
  · cases h
  · split at h
    · cases h
    · rename_i h2
      split at h
      · cases h
      · cases h
        simp only [view, Classical.not_not, List.contains_iff_mem, List.mem_map] at h2
        obtain ⟨d, hd, he⟩ := h2
        cases e : find_cloud st.clouds c.cloud with
        | some d => exact ⟨d, rfl⟩
        | none =>
          have := List.find?_eq_none.1 e d hd
          simp [he] at this

theorem storage_create_kept (up : Nat → Bool) (st : Reopen.St) (c : Source) (b : Bool) (o : Settings.Outside) :
    Kept up st { st with storages := (Settings.storage_create (view st) c b o).2.storages } := by
  unfold Settings.storage_create
  split
  · split <;> exact kept_refl _ _
  · split
    · exact kept_refl _ _
    · split
      · rename_i cloud hcl
        refine ⟨fun h => ?_, fun t ht min hm hu => ?_, fun hl t ht n hn => ?_⟩
        rotate_right
        · rcases List.mem_append.1 ht with ht | ht
          · exact hl t ht n hn
          · simp at ht
            subst ht
            exact set_cloud_found hcl n hn
        · show Apart ((st.storages ++ [_]).map _)
          unfold Apart at *
          rw [List.map_append, List.pairwise_append]
          exact ⟨h, List.pairwise_singleton _ _, fun a _ b hb x _ hx => by simp at hb; subst hb; cases hx⟩
        · rcases List.mem_append.1 ht with ht | ht
          · exact ⟨t, ht, hm, fun n c h1 h2 => ⟨n, c, h1, h2, rfl⟩⟩
          · simp at ht
            subst ht
            cases hm
      all_goals exact kept_refl _ _

theorem storage_drop_kept (up : Nat → Bool) (st : Reopen.St) (n : Bytes) (b : Bool) (o : Settings.Outside) :
    Kept up st { st with storages := (Settings.storage_drop (view st) n b o).2.storages } := by
  unfold Settings.storage_drop
  split
  · exact kept_refl _ _
  · split
    · split <;> exact kept_refl _ _
    · split
      · exact kept_refl _ _
      · split
        · exact kept_refl _ _
        · split
          · exact kept_refl _ _
          · refine ⟨fun h => ?_, fun t ht min hm _ => ⟨t, (unlink_sub n st.storages).subset ht, hm, fun n c h1 h2 => ⟨n, c, h1, h2, rfl⟩⟩,
              fun hl t ht => hl t ((unlink_sub n st.storages).subset ht)⟩
            unfold Apart at *
            exact h.sublist ((unlink_sub n st.storages).map _)

/-- A change of one storage that keeps partitions in the cloud in place. -/
theorem change_kept {up : Nat → Bool} {st : Reopen.St} {name : Bytes} {f : Storage → Storage} (hf : ∀ s, (f s).parts = s.parts)
    (h : ∀ s, Settings.find st.storages name = some s → ∀ min ∈ s.parts, up min = true →
      (f s).cloud = s.cloud ∧ (f s).source.path = s.source.path ∧ (f s).source.uuid = s.source.uuid)
    (hl : ∀ s, Settings.find st.storages name = some s → ∀ n, (f s).cloud = some n → s.cloud = some n ∨ ∃ d, find_cloud st.clouds n = some d) :
    Kept up st { st with storages := Settings.change name f st.storages } := by
  refine ⟨fun h => ?_, fun t ht min hm hu => ?_, fun hk t ht n hn => ?_⟩
  rotate_right
  · rcases mem_change ht with ht | ⟨s, h1, h2, rfl⟩
    · exact hk t ht n hn
    · rcases hl s h1 n hn with hn | hn
      · exact hk s h2 n hn
      · exact hn
  · show Apart ((Settings.change name f st.storages).map _)
    rw [change_parts hf]
    exact h
  · rcases mem_change ht with ht | ⟨s, h1, h2, rfl⟩
    · exact ⟨t, ht, hm, fun n c h1 h2 => ⟨n, c, h1, h2, rfl⟩⟩
    · rw [hf] at hm
      obtain ⟨e1, e2, e3⟩ := h s h1 min hm hu
      refine ⟨s, h2, hm, fun n c h3 h4 => ⟨n, c, e1.trans h3, h4, ?_⟩⟩
      unfold place
      rw [e2, e3]

theorem storage_rename_kept (up : Nat → Bool) (st : Reopen.St) (n n' : Bytes) (b : Bool) :
    Kept up st { st with storages := (Settings.storage_rename (view st) n n' b).2.storages } := by
  unfold Settings.storage_rename
  split
  · exact kept_refl _ _
  · split
    · split <;> exact kept_refl _ _
    · split
      · exact kept_refl _ _
      · exact change_kept (fun _ => rfl) (fun s _ min _ _ => ⟨rfl, rfl, rfl⟩) fun s _ n hn => .inl hn

theorem storage_alter_kept (up : Nat → Bool) (st : Reopen.St) (c : Source) (mask : Nat) (b : Bool) (o : Settings.Outside)
    (h0 : mask.testBit 0 = false) (ho : ∀ s, Settings.find st.storages c.name = some s → s.parts.any up = true → o.onCloud = true) :
    Kept up st { st with storages := (Settings.storage_alter (view st) c mask b o).2.storages } := by
  unfold Settings.storage_alter
  split
  · split <;> exact kept_refl _ _
  · rename_i s hs
    have hs : Settings.find st.storages c.name = some s := hs
    by_cases h1 : (mask.testBit 6 && decide (s.parts ≠ [])) = true
    · rw [if_pos h1]; exact kept_refl _ _
    rw [if_neg h1]
    by_cases h2 : (mask.testBit 2 && decide (s.parts ≠ [])) = true
    · rw [if_pos h2]; exact kept_refl _ _
    rw [if_neg h2]
    by_cases h3 : (mask.testBit 2 && o.mkdir) = true
    · rw [if_pos h3]; exact kept_refl _ _
    rw [if_neg h3]
    by_cases h4 : ((mask.testBit 11 || mask.testBit 12) && decide (s.parts ≠ [])) = true
    · rw [if_pos h4]; exact kept_refl _ _
    rw [if_neg h4]
    by_cases h5 : (mask.testBit 3 && o.onCloud) = true
    · rw [if_pos h5]; exact kept_refl _ _
    rw [if_neg h5]
    by_cases h6 : (mask.testBit 3 && s.cloud.isSome && o.detach) = true
    · rw [if_pos h6]; exact kept_refl _ _
    rw [if_neg h6]
    dsimp only
    have hpath : ∀ min ∈ s.parts, (Settings.source_alter s.source c mask).path = s.source.path := by
      intro min hm
      have hne : s.parts ≠ [] := by
        intro e
        rw [e] at hm
        cases hm
      have : mask.testBit 2 = false := by
        cases e : mask.testBit 2 with
        | false => rfl
        | true => exact absurd (by simp [e, hne]) h2
      simp [Settings.source_alter, this]
    have huuid : (Settings.source_alter s.source c mask).uuid = s.source.uuid := by simp [Settings.source_alter, h0]
    by_cases h7 : mask.testBit 3 = true
    · rw [if_neg (by simpa using h7)]
      have hup : ∀ min ∈ s.parts, up min = true → False := by
        intro min hm hu
        apply h5
        rw [h7, ho s hs (List.any_eq_true.2 ⟨min, hm, hu⟩)]
        rfl
      have hk : ∀ x : Option Bytes, (∀ n, x = some n → ∃ d, find_cloud st.clouds n = some d) → Kept up st { st with
          storages := (Settings.change c.name (fun u => { u with source := Settings.source_alter s.source c mask, cloud := x }) st.storages) } := by
        intro x hx
        refine change_kept (fun _ => rfl) (fun u hu' min hm hu => ?_) fun u _ n hn => .inr (hx n hn)
        rw [hs] at hu'
        cases hu'
        exact (hup min hm hu).elim
      split
      · rename_i hcl
        exact hk _ (set_cloud_found hcl)
      · exact hk _ (fun n hn => (by cases hn))
      all_goals exact kept_refl _ _
    · rw [if_pos h7]
      refine change_kept (fun _ => rfl) (fun u hu' min hm hu => ?_) fun u _ n hn => .inl hn
      rw [hs] at hu'
      cases hu'
      exact ⟨rfl, hpath min hm, huuid⟩

theorem pipeline_rename_kept (up : Nat → Bool) (st : Reopen.St) (n n' : Bytes) : Kept up st (pipeline_rename st n n') := by
  unfold pipeline_rename
  split
  · exact kept_of (kept_refl up st) rfl rfl
  · exact kept_refl _ _

theorem andThen_kept {up : Nat → Bool} {st : Reopen.St} {r : Res Unit × Reopen.St} {f : Reopen.St → Res Unit × Reopen.St}
    (h : Kept up st r.2) (hf : ∀ s, Kept up s (f s).2) : Kept up st (andThen r f).2 := by
  obtain ⟨r1, st'⟩ := r
  cases r1 <;> try exact h
  exact kept_trans h (hf st')

/-- The bits of ALTER CLOUD. -/
theorem alter_bit {env : Env} {text : List Nat} {b : Bool} {n : List Nat} {c : CloudConfig} {mask : Nat}
    (h : parse env text = .ok (.cloudAlter b n c mask)) : mask.testBit 1 = false := by
  obtain ⟨items, _, hs⟩ := C58.parse_code.1 h
  cases hs with
  | cloudAlter _ _ _ _ _ _ h0 =>
    cases e : mask.testBit 1 with
    | false => rfl
    | true =>
      have h2 := Nat.testBit_and mask 2 1
      rw [h0, e, Nat.zero_testBit] at h2
      exact absurd h2 (by decide)

/-- The same for the command of a text. -/
theorem command_kept {m : Machine} {w : World} {text : List Nat} {uuid : Uuid} {key : Bytes} {o : Settings.Outside} {env : Env} {c : Cmd}
    (he : envOf w.st.cfg uuid key = .ok env) (hp : parse env text = .ok c) (hc : Careful w (.execute text uuid key o)) :
    Kept w.up w.st (command m w.st c { o with onCloud := onCloud w text uuid key }).2 := by
  cases c with
  | set n v =>
    unfold Reopen.command
    dsimp only
    split
    · split
      · split
        · exact kept_of (kept_refl _ _) rfl rfl
        · exact saved_kept (r := (.ok (), { w.st with cfg := _ })) (kept_of (kept_refl _ _) rfl rfl)
      · exact kept_of (kept_refl _ _) rfl rfl
    · exact kept_of (kept_refl _ _) rfl rfl
  | cloudCreate b c => exact saved_kept (cloud_create_kept _ _ _ _)
  | cloudDrop b n => exact saved_kept (cloud_drop_kept _ _ _ _)
  | cloudRename b n n' =>
    exact saved_kept (andThen_kept (cloud_rename_kept _ _ _ _ _) fun s => rename_sources_kept _ s _ _)
  | cloudAlter b n c mask =>
    exact saved_kept (cloud_alter_kept _ _ _ _ _ (alter_bit hp) fun h4 => hc b n c mask ⟨env, he, hp⟩ h4)
  | storageCreate b c => exact saved_kept (through_kept (storage_create_kept _ _ _ _ _))
  | storageDrop b n => exact saved_kept (through_kept (storage_drop_kept _ _ _ _ _))
  | storageRename b n n' =>
    exact saved_kept (andThen_kept (through_kept (storage_rename_kept _ _ _ _ _)) fun s => pipeline_rename_kept _ s _ _)
  | storageAlter b n c mask =>
    refine saved_kept (through_kept (storage_alter_kept _ _ _ _ _ _ (C80.parse_alter hp).1 fun s hs ha => ?_))
    simp only [onCloud, he, Res.bind_ok, hp, hs, ha]
  | pipelineAlter l =>
    refine saved_kept ?_
    unfold Reopen.pipeline_alter
    split
    · split
      · exact kept_of (kept_refl _ _) rfl rfl
      · exact kept_refl _ _
    all_goals exact kept_refl _ _
  | _ => exact kept_refl _ _

theorem execute_inv {m : Machine} {w : World} {text : List Nat} {uuid : Uuid} {key : Bytes} {o : Settings.Outside} (h : Inv w)
    (hc : Careful w (.execute text uuid key o)) :
    Inv { w with st := (Reopen.execute m w.st text uuid key { o with onCloud := onCloud w text uuid key }).2 } := by
  have hk : Kept w.up w.st (Reopen.execute m w.st text uuid key { o with onCloud := onCloud w text uuid key }).2 := by
    unfold Reopen.execute
    cases e : envOf w.st.cfg uuid key with
    | ok env =>
      rw [Res.bind_ok]
      cases e' : parse env text with
      | ok c => exact command_kept e e' hc
      | _ => exact kept_refl _ _
    | _ => exact kept_refl _ _
  refine ⟨hk.apart h.apart, fun t ht min hm hu => ?_, hk.linked h.linked⟩
  obtain ⟨s, hs, hm', k⟩ := hk.held t ht min hm hu
  obtain ⟨n, c, h1, h2, h3⟩ := h.held s hs min hm' hu
  obtain ⟨n', c', h4, h5, h6⟩ := k n c h1 h2
  exact ⟨n', c', h4, h5, fun ha => by rw [h6]; exact h3 ha⟩

/-! ### Partitions -/

theorem create_inv {m : Machine} {w : World} (h : Inv w) (name : Bytes) (min v : Nat) :
    ∃ w', step m w (.create name min v) = .ok w' ∧ Inv w' := by
  simp only [Reach.step]
  split
  · rename_i s h1 h2
    refine ⟨_, rfl, give_apart h.apart (holder_none h1), fun t ht x hx hu => ?_, fun t ht n hn => ?_⟩
    rotate_right
    · obtain ⟨s, hs, _, e2, _⟩ := mem_give ht
      exact h.linked s hs n (e2.symm.trans hn)
    obtain ⟨s, hs, e1, e2, e3⟩ := mem_give ht
    have hne : x ≠ min := by
      rintro rfl
      simp only [put_same] at hu
      cases hu
    simp only [put_other _ _ hne] at hu
    rcases e3 x hx with rfl | hx'
    · exact absurd rfl hne
    obtain ⟨n, c, k1, k2, k3⟩ := h.held s hs x hx' hu
    refine ⟨n, c, e2.trans k1, k2, fun ha => ?_⟩
    simp only [put_other _ _ hne] at ha ⊢
    rw [e1]
    exact k3 ha
  · exact ⟨w, rfl, h⟩

theorem refresh_inv {m : Machine} {w : World} (h : Inv w) (min v : Nat) (target : Option Bytes) :
    ∃ w', step m w (.refresh min v target) = .ok w' ∧ Inv w' := by
  simp only [Reach.step]
  split
  · exact ⟨w, rfl, h⟩
  · by_cases hu : w.up min = true
    · rw [if_pos hu]; exact ⟨w, rfl, h⟩
    rw [if_neg hu]
    cases target with
    | none =>
      refine ⟨_, rfl, h.apart, fun t ht x hx hu' => ?_, h.linked⟩
      have hne : x ≠ min := by
        rintro rfl
        exact hu hu'
      obtain ⟨n, c, k1, k2, k3⟩ := h.held t ht x hx hu'
      refine ⟨n, c, k1, k2, fun ha => ?_⟩
      simp only [put_other _ _ hne]
      exact k3 ha
    | some name =>
      dsimp only
      split
      · exact ⟨w, rfl, h⟩
      · refine ⟨_, rfl, give_apart (take_sub h.apart) (fun s hs hm => ?_), fun t ht x hx hu' => ?_, fun t ht n hn => ?_⟩
        rotate_right
        · obtain ⟨s, hs, _, e2, _⟩ := mem_give ht
          obtain ⟨r, hr, _, e5, _⟩ := mem_take hs
          exact h.linked r hr n ((e2.trans e5).symm.trans hn)
        · obtain ⟨_, _, _, _, e⟩ := mem_take hs
          exact ((e min).1 hm).2 rfl
        · have hne : x ≠ min := by
            rintro rfl
            exact hu hu'
          obtain ⟨s, hs, e1, e2, e3⟩ := mem_give ht
          obtain ⟨r, hr, e4, e5, e6⟩ := mem_take hs
          rcases e3 x hx with rfl | hx'
          · exact absurd rfl hne
          obtain ⟨n, c, k1, k2, k3⟩ := h.held r hr x ((e6 x).1 hx').1 hu'
          refine ⟨n, c, (e2.trans e5).trans k1, k2, fun ha => ?_⟩
          simp only [put_other _ _ hne]
          rw [e1, e4]
          exact k3 ha

theorem upload_inv {m : Machine} {w : World} (h : Inv w) (min : Nat) (lost : Bool) :
    ∃ w', step m w (.upload min lost) = .ok w' ∧ Inv w' := by
  simp only [Reach.step]
  split
  · exact ⟨w, rfl, h⟩
  · rename_i s hs
    obtain ⟨hs', hm⟩ := holder_some hs
    by_cases hb : s.cloud = none ∨ w.up min = true
    · rw [if_pos hb]; exact ⟨w, rfl, h⟩
    rw [if_neg hb]
    have hn : s.cloud ≠ none := fun e => hb (.inl e)
    have hu : w.up min ≠ true := fun e => hb (.inr e)
    obtain ⟨n, hn⟩ := Option.ne_none_iff_exists'.1 hn
    obtain ⟨c, hc⟩ := h.linked s hs' n hn
    have ha : address w s min = .ok (place c s.source min) := by simp only [address, hn, hc]
    rw [ha, Res.bind_ok]
    have hother : ∀ x, x ≠ min → ∀ d (t : Source), put w.stored (place c s.source min) (some (w.file min)) (place d t x) = w.stored (place d t x) :=
      fun x hx d t => put_other _ _ fun e => hx (place_min e)
    cases lost with
    | true =>
      refine ⟨_, rfl, h.apart, fun t ht x hx hu' => ?_, h.linked⟩
      have hne : x ≠ min := by
        rintro rfl
        exact hu hu'
      obtain ⟨n, d, k1, k2, k3⟩ := h.held t ht x hx hu'
      exact ⟨n, d, k1, k2, fun ha => (hother x hne d t.source).trans (k3 ha)⟩
    | false =>
      refine ⟨_, rfl, h.apart, fun t ht x hx hu' => ?_, h.linked⟩
      by_cases hne : x = min
      · subst hne
        have := apart_eq h.apart hs' ht hm hx
        subst this
        exact ⟨n, c, hn, hc, fun _ => put_same _ _ _⟩
      · simp only [put_other _ _ hne] at hu'
        obtain ⟨n, d, k1, k2, k3⟩ := h.held t ht x hx hu'
        refine ⟨n, d, k1, k2, fun ha => ?_⟩
        simp only [put_other _ _ hne] at ha
        exact (hother x hne d t.source).trans (k3 ha)

theorem remove_inv {w : World} (h : Inv w) (min : Nat) (lost : Bool) : ∃ w', Reach.remove w min lost = .ok w' ∧ Inv w' ∧ w'.st = w.st := by
  unfold Reach.remove
  by_cases hu : w.up min = true
  · rw [if_pos hu]
    split
    · exact ⟨w, rfl, h, rfl⟩
    · rename_i s hs
      obtain ⟨hs, hm⟩ := holder_some hs
      obtain ⟨n, c, hn, hc, _⟩ := h.held s hs min hm hu
      have ha : address w s min = .ok (place c s.source min) := by simp only [address, hn, hc]
      rw [ha, Res.bind_ok]
      have hother : ∀ x, x ≠ min → ∀ d (t : Source), put w.stored (place c s.source min) none (place d t x) = w.stored (place d t x) :=
        fun x hx d t => put_other _ _ fun e => hx (place_min e)
      cases lost with
      | true =>
        refine ⟨_, rfl, ⟨h.apart, fun t ht x hx hu' => ?_, h.linked⟩, rfl⟩
        obtain ⟨n, d, k1, k2, k3⟩ := h.held t ht x hx hu'
        refine ⟨n, d, k1, k2, fun ha => ?_⟩
        by_cases hne : x = min
        · subst hne
          simp only [put_same] at ha
          cases ha
        · simp only [put_other _ _ hne] at ha
          exact (hother x hne d t.source).trans (k3 ha)
      | false =>
        refine ⟨_, rfl, ⟨h.apart, fun t ht x hx hu' => ?_, h.linked⟩, rfl⟩
        by_cases hne : x = min
        · subst hne
          simp only [put_same] at hu'
          cases hu'
        · simp only [put_other _ _ hne] at hu'
          obtain ⟨n, d, k1, k2, k3⟩ := h.held t ht x hx hu'
          refine ⟨n, d, k1, k2, fun ha => ?_⟩
          simp only [put_other _ _ hne] at ha
          exact (hother x hne d t.source).trans (k3 ha)
  · rw [if_neg hu]
    exact ⟨w, rfl, h, rfl⟩

theorem drop_inv {m : Machine} {w : World} (h : Inv w) (min : Nat) (lost : Bool) :
    ∃ w', step m w (.drop min lost) = .ok w' ∧ Inv w' := by
  obtain ⟨w1, h1, h2, _⟩ := remove_inv h min lost
  simp only [Reach.step, h1, Res.bind_ok]
  by_cases hu : w1.up min = true
  · rw [if_pos hu]; exact ⟨w1, rfl, h2⟩
  rw [if_neg hu]
  refine ⟨_, rfl, take_sub h2.apart, fun t ht x hx hu' => ?_, fun t ht n hn => ?_⟩
  rotate_right
  · obtain ⟨r, hr, _, e5, _⟩ := mem_take ht
    exact h2.linked r hr n (e5.symm.trans hn)
  obtain ⟨r, hr, e4, e5, e6⟩ := mem_take ht
  obtain ⟨n, c, k1, k2, k3⟩ := h2.held r hr x ((e6 x).1 hx).1 hu'
  exact ⟨n, c, e5.trans k1, k2, fun ha => by rw [e4]; exact k3 ha⟩

theorem step_inv {m : Machine} {w : World} (h : Inv w) (op : Reach.Op) (hc : Careful w op) : ∃ w', Reach.step m w op = .ok w' ∧ Inv w' := by
  cases op with
  | execute text uuid key o => exact ⟨_, rfl, execute_inv h hc⟩
  | create name min v => exact create_inv h name min v
  | refresh min v target => exact refresh_inv h min v target
  | upload min lost => exact upload_inv h min lost
  | remove min lost =>
    obtain ⟨w', h1, h2, _⟩ := remove_inv h min lost
    exact ⟨w', h1, h2⟩
  | drop min lost => exact drop_inv h min lost

theorem run_inv {m : Machine} : ∀ {ops : List Reach.Op} {w : World}, Inv w → Carefully m w ops → ∃ w', Reach.run m w ops = .ok w' ∧ Inv w'
  | [], w, h, _ => ⟨w, rfl, h⟩
  | op :: ops, w, h, hc => by
    obtain ⟨w1, h1, h2⟩ := step_inv h op hc.1
    obtain ⟨w2, h3, h4⟩ := run_inv h2 (hc.2 w1 h1)
    exact ⟨w2, by simp only [Reach.run, h1, Res.bind_ok, h3], h4⟩

theorem start_inv {st : Reopen.St} (h : Linked st) (stored : Place → Option Nat) : Inv (start st stored) := by
  refine ⟨?_, fun s hs min hm hu => (by cases hu), fun s hs n hn => ?_⟩
  · show Apart ((st.storages.map _).map _)
    rw [List.map_map]
    unfold Apart
    rw [List.pairwise_map]
    exact List.pairwise_of_forall fun a b x hx => by cases hx
  · obtain ⟨t, ht, rfl⟩ := List.mem_map.1 hs
    exact h t ht n hn

end Verif.C95
