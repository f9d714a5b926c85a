import Verif.Spec.C87
import Verif.Proofs.C68
import Verif.Proofs.C77
import Verif.Props.C45

namespace Verif.C87
open Random

theorem mod_step {t : Nat} (ht : t = 26 ∨ t = 35 ∨ t = 44 ∨ t = 53 ∨ t = 62) {o0 o1 y w g : UInt64}
    (hg : g.toNat = w.toNat % 2 ^ 26)
    (h : y.toNat % 2 ^ t = w.toNat % 2 ^ t)
    (hw : w >>> 26 = (o1 - w) ^^^ ((o0 - w) ^^^ ((o0 - w) <<< 23)) ^^^ w ^^^ (((o0 - w) ^^^ ((o0 - w) <<< 23)) >>> 17)) :
    (better o0 o1 g y).toNat % 2 ^ (if t = 62 then 64 else t + 9) = w.toNat % 2 ^ (if t = 62 then 64 else t + 9) := by
  have hx : (o0 - y).toNat % 2 ^ t = (o0 - w).toNat % 2 ^ t := by
    rw [UInt64.toNat_sub, UInt64.toNat_sub]
    have := y.toNat_lt; have := w.toNat_lt
    rcases ht with rfl | rfl | rfl | rfl | rfl <;> omega
  have hz : (o1 - y).toNat % 2 ^ t = (o1 - w).toNat % 2 ^ t := by
    rw [UInt64.toNat_sub, UInt64.toNat_sub]
    have := y.toNat_lt; have := w.toNat_lt
    rcases ht with rfl | rfl | rfl | rfl | rfl <;> omega
  unfold better
  dsimp only
  generalize o0 - y = x at *
  generalize o0 - w = x' at *
  have hs : (x <<< 23).toNat % 2 ^ t = (x' <<< 23).toNat % 2 ^ t := by
    have e : ∀ v : UInt64, (v <<< 23).toNat = v.toNat * 8388608 % 18446744073709551616 := by
      intro v
      rw [UInt64.toNat_shiftLeft]
      simp [Nat.shiftLeft_eq]
    rw [e, e]
    rcases ht with rfl | rfl | rfl | rfl | rfl <;> omega
  have ha : (x ^^^ (x <<< 23)).toNat % 2 ^ t = (x' ^^^ (x' <<< 23)).toNat % 2 ^ t := by
    rw [UInt64.toNat_xor, UInt64.toNat_xor, Nat.xor_mod_two_pow, Nat.xor_mod_two_pow, hx, hs]
  have low : ∀ {u v : UInt64}, u.toNat % 2 ^ t = v.toNat % 2 ^ t → u.toNat % 2 ^ (t - 17) = v.toNat % 2 ^ (t - 17) := by
    intro u v huv
    rcases ht with rfl | rfl | rfl | rfl | rfl <;> simp only [Nat.reduceSub, Nat.reducePow] at * <;> omega
  generalize hA : x ^^^ (x <<< 23) = a at *
  generalize hA' : x' ^^^ (x' <<< 23) = a' at *
  have sh : ∀ v : UInt64, (v >>> 17).toNat = v.toNat / 131072 := by
    intro v
    rw [UInt64.toNat_shiftRight]
    simp [Nat.shiftRight_eq_div_pow]
  have hr : (a >>> 17).toNat % 2 ^ (t - 17) = (a' >>> 17).toNat % 2 ^ (t - 17) := by
    rw [sh, sh]
    rcases ht with rfl | rfl | rfl | rfl | rfl <;> simp only [Nat.reduceSub, Nat.reducePow] at * <;> omega
  have hX : ((o1 - y) ^^^ a ^^^ y ^^^ (a >>> 17)).toNat % 2 ^ (t - 17) = (w >>> 26).toNat % 2 ^ (t - 17) := by
    rw [hw]
    simp only [UInt64.toNat_xor, Nat.xor_mod_two_pow]
    rw [low hz, low ha, low h, hr]
  have sw : (w >>> 26).toNat = w.toNat / 67108864 := by
    rw [UInt64.toNat_shiftRight]
    simp [Nat.shiftRight_eq_div_pow]
  rw [sw] at hX
  generalize (o1 - y) ^^^ a ^^^ y ^^^ (a >>> 17) = v at hX
  have sv : (v <<< 26 + g).toNat = (v.toNat * 67108864 % 18446744073709551616 + g.toNat) % 18446744073709551616 := by
    rw [UInt64.toNat_add, UInt64.toNat_shiftLeft]
    simp [Nat.shiftLeft_eq]
  rw [sv, hg]
  have := w.toNat_lt
  rcases ht with rfl | rfl | rfl | rfl | rfl <;> simp only [Nat.reduceSub, Nat.reducePow, Nat.reduceAdd, Nat.reduceEqDiff, if_false, if_true] at * <;> omega

theorem middle_eq {o0 o1 w : UInt64}
    (hw : w >>> 26 = (o1 - w) ^^^ ((o0 - w) ^^^ ((o0 - w) <<< 23)) ^^^ w ^^^ (((o0 - w) ^^^ ((o0 - w) <<< 23)) >>> 17)) :
    middle o0 o1 (UInt64.ofNat (w.toNat % 2 ^ 26)) = w := by
  generalize hg : UInt64.ofNat (w.toNat % 2 ^ 26) = g
  have hg : g.toNat = w.toNat % 2 ^ 26 := by
    rw [← hg, UInt64.toNat_ofNat']
    omega
  have h0 : g.toNat % 2 ^ 26 = w.toNat % 2 ^ 26 := by omega
  have h1 := mod_step (by simp) hg h0 hw
  have h2 := mod_step (t := 35) (by simp) hg h1 hw
  have h3 := mod_step (t := 44) (by simp) hg h2 hw
  have h4 := mod_step (t := 53) (by simp) hg h3 hw
  have h5 := mod_step (t := 62) (by simp) hg h4 hw
  apply UInt64.toNat_inj.1
  unfold middle
  have e := h5
  simp only [if_true] at e
  rw [Nat.mod_eq_of_lt (UInt64.toNat_lt _), Nat.mod_eq_of_lt (UInt64.toNat_lt _)] at e
  exact e

theorem xor_cancel (a b c d : UInt64) : (a ^^^ b ^^^ c ^^^ d) ^^^ a ^^^ b ^^^ c = d := by
  apply UInt64.toNat_inj.1
  simp only [UInt64.toNat_xor]
  apply Nat.eq_of_testBit_eq
  intro i
  simp only [Nat.testBit_xor]
  cases a.toNat.testBit i <;> cases b.toNat.testBit i <;> cases c.toNat.testBit i <;> cases d.toNat.testBit i <;> rfl

/-- Two numbers and 26 bits tell the state. -/
theorem after_eq (r : Random) : ∃ g, g < Guesses ∧
    after (random_generate r).2 (random_generate (random_generate r).1).2 g = (random_generate (random_generate r).1).1 := by
  obtain ⟨p, x⟩ := r
  generalize hr1 : random_generate ⟨p, x⟩ = q
  obtain ⟨⟨x', y⟩, o0⟩ := q
  have e1 : x' = x ∧ o0 = y + x := by
    simp only [random_generate, Prod.mk.injEq, Random.mk.injEq] at hr1
    obtain ⟨⟨h1, h2⟩, h3⟩ := hr1
    exact ⟨h1.symm, by rw [← h3, ← h2]⟩
  obtain ⟨rfl, rfl⟩ := e1
  refine ⟨y.toNat % 2 ^ 26, Nat.mod_lt _ (by decide), ?_⟩
  generalize hr2 : random_generate ⟨x', y⟩ = q
  obtain ⟨⟨y', z⟩, o1⟩ := q
  simp only [random_generate, Prod.mk.injEq, Random.mk.injEq] at hr2
  obtain ⟨⟨rfl, h2⟩, h3⟩ := hr2
  rw [h2] at h3
  subst h3
  have hx : y + x' - y = x' := by rw [UInt64.add_comm, UInt64.add_sub_cancel]
  have hz : z + y - y = z := UInt64.add_sub_cancel ..
  have key : middle (y + x') (z + y) (UInt64.ofNat (y.toNat % 2 ^ 26)) = y := by
    refine middle_eq ?_
    rw [hx, hz, ← h2]
    generalize x' ^^^ (x' <<< 23) = a
    exact (xor_cancel a y (a >>> 17) (y >>> 26)).symm
  unfold after
  dsimp only
  rw [key, hz]

/-! ## Keys -/

theorem ofNat_toNat (v : UInt64) : UInt64.ofNat v.toNat = v := by simp

theorem alnum_more {cap : Nat} {size : Int} : ∀ {fuel fuel' : Nat} {r r' : Random} {data out : Bytes}, fuel ≤ fuel' →
    alnum_from cap size fuel r data = .ok (r', out) → alnum_from cap size fuel' r data = .ok (r', out)
  | 0, _, _, _, _, _, _, h => by cases h
  | fuel + 1, 0, _, _, _, _, hf, _ => by omega
  | fuel + 1, fuel' + 1, r, r', data, out, hf, h => by
    rw [alnum_from] at h ⊢
    dsimp only at h ⊢
    obtain ⟨⟨d, done⟩, e, h⟩ := Res.bind_eq_ok.1 h
    rw [e, Res.bind_ok]
    cases done with
    | true => simpa using h
    | false =>
      simp only [Bool.false_eq_true, if_false] at h ⊢
      exact alnum_more (by omega) h

/-- However much fuel there is, the key is the same. -/
theorem key_fuel {f f' : Nat} {r s s' : Random} {k k' : Bytes} (h : storage_key f r true [] = .ok (s, k))
    (h' : storage_key f' r true [] = .ok (s', k')) : s = s' ∧ k = k' := by
  have h1 : alnum_from 32 32 f r [] = .ok (s, k) := h
  have h2 : alnum_from 32 32 f' r [] = .ok (s', k') := h'
  have e1 := alnum_more (Nat.le_max_left f f') h1
  have e2 := alnum_more (Nat.le_max_right f f') h2
  rw [e1] at e2
  cases e2
  exact ⟨rfl, rfl⟩

theorem search {fuel others : Nat} {r r' : Random} {u : Uuid} {key : Bytes}
    (h : storage_create fuel others r true [] = .ok (r', u, key)) : ∃ g, g < Guesses ∧ guess fuel others u g = .ok (r', key) := by
  obtain ⟨g, hg, e⟩ := after_eq r
  refine ⟨g, hg, ?_⟩
  unfold storage_create uuid_generate at h
  dsimp only at h
  obtain ⟨⟨r1, k⟩, e1, h⟩ := Res.bind_eq_ok.1 h
  cases h
  unfold guess
  rw [ofNat_toNat, ofNat_toNat, e]
  exact e1

theorem legal {fuel others : Nat} {r r' : Random} {given : Bytes} {u : Uuid} {key : Bytes}
    (h : storage_create fuel others r true given = .ok (r', u, key)) : C45.Legal u := by
  unfold storage_create uuid_generate at h
  dsimp only at h
  obtain ⟨⟨r1, k⟩, e1, h⟩ := Res.bind_eq_ok.1 h
  cases h
  exact ⟨UInt64.toNat_lt _, UInt64.toNat_lt _⟩

/-- Different keys for different numbers. -/
def spell : Nat → Nat → Bytes
  | 0, _ => []
  | n + 1, i => UInt8.ofNat (97 + i % 16) :: spell n (i / 16)

theorem spell_inj : ∀ {n i j : Nat}, i < 16 ^ n → j < 16 ^ n → spell n i = spell n j → i = j
  | 0, i, j, hi, hj, _ => by simp at hi hj; omega
  | n + 1, i, j, hi, hj, h => by
    simp only [spell, List.cons.injEq] at h
    have h1 := congrArg UInt8.toNat h.1
    rw [UInt8.toNat_ofNat', UInt8.toNat_ofNat'] at h1
    rw [Nat.pow_succ] at hi hj
    have := spell_inj (Nat.div_lt_of_lt_mul (by omega)) (Nat.div_lt_of_lt_mul (by omega)) h.2
    omega

theorem spell_key : ∀ n i, (spell n i).length = n ∧ ∀ c ∈ spell n i, C68.IsAlnum c
  | 0, _ => ⟨rfl, by simp [spell]⟩
  | n + 1, i => by
    obtain ⟨h1, h2⟩ := spell_key n (i / 16)
    refine ⟨by simp [spell, h1], ?_⟩
    intro c hc
    rcases List.mem_cons.1 hc with rfl | hc
    · refine .inr (.inr ⟨i % 16, by omega, ?_⟩)
      rw [UInt8.toNat_ofNat']
      show (97 + i % 16) % 256 = 97 + i % 16
      omega
    · exact h2 c hc

/-- With a name there are no more keys than guesses. -/
theorem few (others : Nat) (name : List Nat) : ∃ l : List Bytes, l.length ≤ Guesses ∧ ∀ k, Possible false others name k → k ∈ l := by
  by_cases hex : ∃ u : Uuid, C45.Legal u ∧ Uuid.text u = name
  · obtain ⟨u, hl, ht⟩ := hex
    have : ∀ g, ∃ k, ∀ fuel r' k', guess fuel others u g = .ok (r', k') → k' = k := by
      intro g
      by_cases h : ∃ fuel r' k, guess fuel others u g = .ok (r', k)
      · obtain ⟨fuel, r', k, h⟩ := h
        exact ⟨k, fun fuel' r'' k' h' => (key_fuel h' h).2⟩
      · exact ⟨[], fun fuel r' k' h' => absurd ⟨fuel, r', k', h'⟩ h⟩
    choose f hf using this
    refine ⟨(List.range Guesses).map f, by simp, ?_⟩
    rintro k ⟨fuel, r, r', u', h, e⟩
    have hu : u' = u := C45.C45_text_identifies _ _ (legal h) hl (e.trans ht.symm)
    subst hu
    obtain ⟨g, hg, e2⟩ := search h
    exact List.mem_map.2 ⟨g, List.mem_range.2 hg, (hf g fuel r' k e2).symm⟩
  · refine ⟨[], Nat.zero_le _, ?_⟩
    rintro k ⟨fuel, r, r', u, h, e⟩
    exact absurd ⟨u, legal h, e⟩ hex

/-- With a name, some key is not possible. -/
theorem narrow (others : Nat) (name : List Nat) : ∃ k, IsKey k ∧ ¬ Possible false others name k := by
  apply Classical.byContradiction
  intro hno
  obtain ⟨l, hl, hall⟩ := few others name
  have key : ∀ n, n ≤ 16 ^ 32 → n ≤ l.length := by
    intro n hn16
    have hn : ((List.range n).map (spell 32)).Nodup := by
      refine List.Nodup.map_on ?_ List.nodup_range
      intro x hx y hy e
      have := List.mem_range.1 hx
      have := List.mem_range.1 hy
      exact spell_inj (by omega) (by omega) e
    have hs : (List.range n).map (spell 32) ⊆ l := by
      intro x hx
      obtain ⟨i, -, rfl⟩ := List.mem_map.1 hx
      apply hall
      apply Classical.byContradiction
      intro h
      exact hno ⟨spell 32 i, spell_key 32 i, h⟩
    have := (hn.subperm hs).length_le
    simpa using this
  have := key (Guesses + 1) (by decide)
  omega

theorem hidden_chosen : Hidden true := by
  rintro others name k ⟨fuel, r, r', u, h, e⟩ k' hk'
  have hne : k' ≠ [] := by rintro rfl; cases hk'.1
  refine ⟨fuel, r, pass others (uuid_generate r).1, u, ?_, e⟩
  have hu : u = (uuid_generate r).2 := by
    unfold storage_create at h
    dsimp only at h
    obtain ⟨⟨r1, k1⟩, e1, h⟩ := Res.bind_eq_ok.1 h
    cases h
    rfl
  rw [hu]
  unfold storage_create
  simp only [storage_key, if_true, if_neg hne, Res.bind_ok]

/-! ## Files -/

theorem pass_word (s0 s1 : UInt64) : ∀ n m, pass n ⟨C68.word s0 s1 m, C68.word s0 s1 (m + 1)⟩ =
    ⟨C68.word s0 s1 (m + n), C68.word s0 s1 (m + n + 1)⟩
  | 0, m => rfl
  | n + 1, m => by
    rw [pass, C68.generate_word, pass_word s0 s1 n (m + 1)]
    congr 2 <;> omega

theorem word_word (s0 s1 : UInt64) (n : Nat) : ∀ k, C68.word (C68.word s0 s1 n) (C68.word s0 s1 (n + 1)) k = C68.word s0 s1 (n + k)
  | 0 => rfl
  | 1 => rfl
  | k + 2 => by
    rw [C68.word, word_word s0 s1 n k, word_word s0 s1 n (k + 1)]
    rfl

theorem before_eq {r : Random} (h : ¬ (r.seed0 = 0 ∧ r.seed1 = 0)) {n : Nat} (hn : n ≤ C68.Cycle) : before n (pass n r) = r := by
  obtain ⟨s0, s1⟩ := r
  have e := pass_word s0 s1 n 0
  have e0 : pass n ⟨s0, s1⟩ = _ := e
  rw [e0]
  unfold before
  simp only [Nat.zero_add]
  rw [word_word, word_word]
  have hr := (C68.repeats h C68.Cycle 0).2 (by simp)
  rw [show n + (C68.Cycle - n) = C68.Cycle by omega, show n + (C68.Cycle - n + 1) = C68.Cycle + 1 by omega, hr.1, hr.2]
  rfl

theorem pass_add (r : Random) : ∀ n m, pass m (pass n r) = pass (n + m) r
  | 0, m => by simp [pass]
  | n + 1, m => by
    rw [show n + 1 + m = (n + m) + 1 by omega, pass, pass, pass_add]

theorem nonzero {fuel : Nat} {r r' : Random} {k : Bytes} (h : storage_key fuel r true [] = .ok (r', k)) :
    ¬ (r.seed0 = 0 ∧ r.seed1 = 0) := by
  rintro ⟨h0, h1⟩
  obtain ⟨s0, s1⟩ := r
  dsimp only at h0 h1
  subst h0 h1
  have h2 : alnum_from 32 32 fuel ⟨0, 0⟩ [] = .ok (r', k) := h
  rw [C68.zero_from] at h2
  cases h2

open Buf Pack in
/-- What is stored of something encrypted begins with the random numbers. -/
theorem sealed_head {g : Gcm} {a : Alloc} {r0 r1 : UInt64} {key : Bytes} {b b' : Buf} {argv : List Bytes} {c : Cipher} {stored : Bytes}
    (hb : C77.Used b) (hl : argv.flatten.length < 2147483648)
    (h : aes_encrypt g a r0.toNat r1.toNat key (buf_reset b) argv = .ok (c, b')) (hs : buf_str b' = .ok stored) :
    UInt64.ofNat (leVal (stored.take 8)) = r0 ∧ UInt64.ofNat (leVal ((stored.drop 8).take 8)) = r1 := by
  obtain ⟨-, hi⟩ := C77.aes_encrypt_ok hb.inv hl h
  rw [(C67.str_ok hi).1] at hs
  cases hs
  unfold C77.sealed
  dsimp only
  rw [List.append_assoc, List.append_assoc]
  have h0 : r0.toNat < 256 ^ 8 := UInt64.toNat_lt _
  have h1 : r1.toNat < 256 ^ 8 := UInt64.toNat_lt _
  rw [List.take_left' (le_length _ _), List.drop_left' (le_length _ _), List.take_left' (le_length _ _), leVal_le_lt h0, leVal_le_lt h1,
    ofNat_toNat, ofNat_toNat]
  exact ⟨rfl, rfl⟩

theorem file_search {fuel : Nat} {r r' : Random} {key stored : Bytes} {d : Nat} (h : storage_key fuel r true [] = .ok (r', key))
    (hd : d + 2 ≤ C68.Cycle) {o0 o1 : UInt64} (h0 : o0 = (random_generate (pass d r)).2)
    (h1 : o1 = (random_generate (random_generate (pass d r)).1).2)
    (hs : UInt64.ofNat (leVal (stored.take 8)) = o0 ∧ UInt64.ofNat (leVal ((stored.drop 8).take 8)) = o1) :
    ∃ g, g < Guesses ∧ guessFile fuel d stored g = .ok (r', key) := by
  obtain ⟨g, hg, e⟩ := after_eq (pass d r)
  refine ⟨g, hg, ?_⟩
  unfold guessFile
  rw [hs.1, hs.2, h0, h1, e]
  have e2 : (random_generate (random_generate (pass d r)).1).1 = pass (d + 2) r := by
    rw [← pass_add]; rfl
  rw [e2, before_eq (nonzero h) hd]
  exact h

end Verif.C87
