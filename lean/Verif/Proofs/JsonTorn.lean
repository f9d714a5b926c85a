import Verif.Proofs.Config

/-! A cut-off text is never read as a value (used by C36). -/
namespace Verif
namespace Json
open Data C34 C35

theorem prefix_app {p a b : Bytes} (h : p <+: a ++ b) : p <+: a ∨ ∃ q, p = a ++ q ∧ q <+: b := by
  rcases Nat.le_total p.length a.length with hl | hl
  · exact .inl (List.prefix_of_prefix_length_le h (List.prefix_append a b) hl)
  · right
    obtain ⟨q, rfl⟩ := List.prefix_of_prefix_length_le (List.prefix_append a b) h hl
    exact ⟨q, rfl, (List.prefix_append_right_inj a).1 h⟩

theorem scan_cut (s q : Bytes) (slash : Bool) (h : delimited slash s = true) (hq : q <+: s) : scan slash q = none := by
  induction s generalizing slash q with
  | nil => rw [List.prefix_nil.1 hq]; rfl
  | cons b s ih =>
    cases q with
    | nil => rfl
    | cons c q =>
      obtain ⟨rfl, hq'⟩ := List.cons_prefix_cons.1 hq
      simp only [delimited] at h
      simp only [scan]
      split at h
      · rename_i hs; rw [if_pos hs, ih _ _ h hq']; rfl
      · rename_i hs
        rw [if_neg hs]
        split at h
        · rename_i hb; rw [if_pos hb, ih _ _ h hq']; rfl
        · rename_i hb
          rw [if_neg hb]
          split at h
          · cases h
          · rename_i hqq; rw [if_neg hqq, ih _ _ h hq']; rfl

theorem decDigits_prefix (w n : Nat) (hn : n < 10 ^ w) (p : Bytes) (hp : p <+: decDigits w n) :
    p = [] ∨ ∃ m v, p = decDigits v m ∧ m ≤ n ∧ m < 10 ^ v ∧ 0 < v := by
  induction w generalizing n with
  | zero => exact .inl (List.prefix_nil.1 hp)
  | succ w ih =>
    unfold decDigits at hp
    rcases prefix_app hp with h | ⟨q, rfl, hq⟩
    · split at h
      · exact .inl (List.prefix_nil.1 h)
      · rcases ih (n / 10) (by rw [Nat.pow_succ] at hn; omega) h with h | ⟨m, v, h1, h2, h3⟩
        · exact .inl h
        · exact .inr ⟨m, v, h1, by omega, h3⟩
    · cases q with
      | nil =>
        rw [List.append_nil] at hp ⊢
        split
        · exact .inl rfl
        · rename_i hge
          rcases Nat.eq_zero_or_pos w with rfl | hw
          · simp at hn; omega
          · exact .inr ⟨n / 10, w, rfl, by omega, by rw [Nat.pow_succ] at hn; omega, hw⟩
      | cons c q =>
        obtain ⟨rfl, h2⟩ := List.cons_prefix_cons.1 hq
        rw [List.prefix_nil.1 h2]
        exact .inr ⟨n, w + 1, rfl, by omega, hn, by omega⟩

theorem next_nil (n : Nat) : (next n []).1 ≤ 0 := by
  unfold next
  split
  · exact by decide
  · simp

theorem next_spaces (n : Nat) (s : Bytes) (h : ∀ b ∈ s, isspace b = true) (hn : n ≤ s.length) : next n s = (0, []) := by
  unfold next
  rw [if_neg (by omega)]
  have : (s.drop n).dropWhile isspace = [] := by
    have hd : ∀ b ∈ s.drop n, isspace b = true := fun b hb => h b (List.mem_of_mem_drop hb)
    generalize s.drop n = u at hd
    induction u with
    | nil => rfl
    | cons a u ih => rw [List.dropWhile_cons_of_pos (hd a List.mem_cons_self)]; exact ih fun b hb => hd b (List.mem_cons_of_mem _ hb)
  rw [this]

/-- What reading a cut-off value gives: an error, or nothing is left. -/
def Cut (r : Res (Int × Bytes × Bytes)) : Prop := ∃ rc s out, r = .ok (rc, s, out) ∧ (rc = -1 ∨ s = [])

theorem cut_eof {fp : Bytes → Option (Nat × Nat)} {d n : Nat} {s : Bytes} (h : next n s = (0, [])) :
    Json.read fp (d + 1) n s = .ok (0, [], []) := by
  simp only [Json.read, h]
  rfl

section
variable (fp : Bytes → Option (Nat × Nat)) (pretty : Bool)

theorem cut_number (i : Int) (hi : SmallInt i) (p : Bytes) (hp : p <+: decimal i) (d : Nat) :
    Cut (Json.read fp (d + 1) 0 p) := by
  -- a non-empty run of digits
  have run : ∀ m v, m ≤ i.natAbs → m < 10 ^ v → 0 < v → ∀ neg : Bool,
      Cut (Json.read fp (d + 1) 0 ((if neg then [45] else []) ++ decDigits v m)) := by
    intro m v h1 h2 h3 neg
    have hsmall : m ≤ 9223372036854775759 := by unfold SmallInt at hi; omega
    have hdig : digits 0 (decDigits v m) = .ok (some ((m : Int), [])) := by
      have := digits_dec v m h2 hsmall h3 []
      rw [List.append_nil] at this
      rw [this]; rfl
    obtain ⟨w, rfl⟩ : ∃ w, v = w + 1 := ⟨v - 1, by omega⟩
    obtain ⟨b, r, he, hb1, hb2⟩ := decDigits_head w m
    have hst := starts_digit hb1 hb2
    have hne : ∀ c : UInt8, isdigit c = false → b ≠ c := by
      intro c hc e
      subst e
      simp only [isdigit, Bool.and_eq_false_iff, decide_eq_false_iff_not, UInt8.le_iff_toNat_le] at hc
      simp at hc; omega
    have hnum : ∃ out, number fp ((if neg then [45] else []) ++ decDigits (w + 1) m) = .ok (some ([], out)) := by
      unfold number
      cases neg with
      | true =>
        simp only [if_true, List.cons_append, List.nil_append, List.head?_cons, decide_true, List.drop_succ_cons, List.drop_zero]
        rw [he] at hdig ⊢
        rw [if_neg (by simp), if_neg (by simp [hne 46 (by decide)]), hdig, Res.bind_ok]
        exact ⟨_, rfl⟩
      | false =>
        simp only [Bool.false_eq_true, if_false, List.nil_append]
        rw [he] at hdig ⊢
        have h45 : ¬ (b = 45) := hne 45 (by decide)
        simp only [List.head?_cons, Option.some.injEq, h45, decide_false, Bool.false_eq_true, if_false]
        rw [if_neg (by simp), if_neg (by simp [hne 46 (by decide)]), hdig, Res.bind_ok]
        exact ⟨_, rfl⟩
    obtain ⟨out, hnum⟩ := hnum
    have hcb : chr b = b.toNat := chr_small (by omega)
    obtain ⟨token, htok, hn⟩ : ∃ token, (token = 45 ∨ (48 ≤ token ∧ token ≤ 57)) ∧
        next 0 ((if neg then [45] else []) ++ decDigits (w + 1) m) = (token, (if neg then [45] else []) ++ decDigits (w + 1) m) := by
      cases neg with
      | true => exact ⟨45, .inl rfl, next_zero _ (by decide)⟩
      | false =>
        refine ⟨chr b, .inr (by omega), ?_⟩
        simp only [Bool.false_eq_true, if_false, List.nil_append]
        rw [he]; exact next_zero _ hst.1
    refine ⟨token, [], out, ?_, .inr rfl⟩
    simp only [Json.read, hn]
    rw [if_neg (by omega), if_neg (by omega), if_neg (by omega), if_neg (by omega), if_neg (by omega),
      if_neg (by omega), if_neg (by omega), if_pos (by omega), hnum]
    rfl
  have hb : i.natAbs < 10 ^ 20 := by unfold SmallInt at hi; omega
  unfold decimal at hp
  split at hp
  · cases p with
    | nil => exact ⟨_, _, _, cut_eof rfl, .inr rfl⟩
    | cons c p =>
      obtain ⟨rfl, hp'⟩ := List.cons_prefix_cons.1 hp
      rcases decDigits_prefix 20 _ hb p hp' with rfl | ⟨m, v, rfl, h1, h2, h3⟩
      · exact ⟨_, _, _, rfl, .inl rfl⟩
      · exact run m v h1 h2 h3 true
  · rcases decDigits_prefix 20 _ hb p hp with rfl | ⟨m, v, rfl, h1, h2, h3⟩
    · exact ⟨_, _, _, cut_eof rfl, .inr rfl⟩
    · exact run m v h1 h2 h3 false

/-- A cut-off string. -/
theorem cut_string (s : Bytes) (hs : delimited false s = true) (q : Bytes) (hq : q <+: s) (d : Nat) :
    Json.read fp (d + 1) 0 (34 :: q) = .ok (-1, [], []) := by
  have hn : next 0 (34 :: q) = (34, 34 :: q) := next_zero _ (by decide)
  simp only [Json.read, hn]
  rw [if_neg (by decide), if_neg (by decide), if_neg (by decide), if_pos (by trivial), List.drop_succ_cons, List.drop_zero,
    scan_cut s q false hs hq]
  rfl

theorem spaces_indent (n : Nat) : ∀ b ∈ indent n, isspace b = true := by
  intro b hb
  unfold indent at hb
  rw [(List.mem_replicate.1 hb).2]
  decide

/-- The white space of a map. -/
def nl (pretty : Bool) : Bytes := if pretty then [10] else []
def ws (pretty : Bool) : Bytes := if pretty then [10] else [32]
def ind (pretty : Bool) (n : Nat) : Bytes := if pretty then indent n else []
def sep (pretty : Bool) (l : Maps) : Bytes :=
  if pretty then (if l.len > 0 then [44, 10] else [10]) else (if l.len > 0 then [44, 32] else [])

theorem spaces_nl (b : UInt8) (h : b ∈ nl pretty) : isspace b = true := by
  cases pretty <;> simp [nl] at h
  subst h; decide
theorem spaces_ws (b : UInt8) (h : b ∈ ws pretty) : isspace b = true := by
  cases pretty <;> simp [ws] at h <;> subst h <;> decide
theorem spaces_ind (n : Nat) (b : UInt8) (h : b ∈ ind pretty n) : isspace b = true := by
  cases pretty <;> simp [ind] at h
  exact spaces_indent n b h

theorem textMap_body' (deep : Nat) (k : Bytes) (v : Val) (l : Maps) :
    textMap pretty deep (.cons k v l) = ind pretty (deep + 1) ++ bodyMap pretty deep k v l := textMap_body pretty deep k v l

theorem dropWhile_spaces (s r : Bytes) (h : ∀ b ∈ s, isspace b = true) : (s ++ r).dropWhile isspace = r.dropWhile isspace := by
  induction s with
  | nil => rfl
  | cons a s ih =>
    rw [List.cons_append, List.dropWhile_cons_of_pos (h a List.mem_cons_self)]
    exact ih fun b hb => h b (List.mem_cons_of_mem _ hb)

theorem next_skip (c : UInt8) (s : Bytes) (h : ∀ b ∈ s, isspace b = true) : next 1 (c :: s) = (0, []) := by
  have := dropWhile_spaces s [] h
  rw [List.append_nil] at this
  simp [next, this]

theorem next_skip_to (c : UInt8) (s r : Bytes) (h : ∀ b ∈ s, isspace b = true) :
    next 1 (c :: (s ++ 34 :: r)) = (34, 34 :: r) := by
  apply next_at 34 r (by simp)
  · rw [List.drop_succ_cons, List.drop_zero, dropWhile_spaces s _ h]
    rfl
  · decide

theorem map_cut_of (l : Maps) (d deep : Nat)
    (H : ∀ k v l', l = .cons k v l' → ∀ r, 34 :: r <+: bodyMap pretty deep k v l' ++ ind pretty deep →
      entries (Json.read fp d) (34 :: r).length (34 :: r) = .ok none)
    (p : Bytes) (hp : p <+: text pretty deep (.map l)) (hne : p ≠ text pretty deep (.map l)) (h0 : p ≠ []) :
    Json.read fp (d + 1) 0 p = .ok (-1, [], []) := by
  cases p with
  | nil => exact absurd rfl h0
  | cons c q =>
    have e : text pretty deep (.map l) = 123 :: (nl pretty ++ (textMap pretty deep l ++ ind pretty deep) ++ [125]) := by
      cases pretty <;> simp [text, nl, ind]
    rw [e] at hp hne
    obtain ⟨rfl, hq⟩ := List.cons_prefix_cons.1 hp
    have hn : next 0 (123 :: q) = (123, 123 :: q) := next_zero _ (by decide)
    have hq : q <+: nl pretty ++ (textMap pretty deep l ++ ind pretty deep) := by
      rcases prefix_app hq with h | ⟨r, rfl, hr⟩
      · exact h
      · cases r with
        | nil => rw [List.append_nil]; exact List.prefix_refl _
        | cons x r =>
          obtain ⟨rfl, h⟩ := List.cons_prefix_cons.1 hr
          rw [List.prefix_nil.1 h] at hne
          exact absurd rfl hne
    simp only [Json.read, hn]
    rw [if_neg (by decide), if_neg (by decide), if_pos (by trivial)]
    cases l with
    | nil =>
      have hs : ∀ b ∈ q, isspace b = true := fun b hb => by
        have := hq.mem hb
        simp only [textMap, List.nil_append, List.mem_append] at this
        exact this.elim (spaces_nl pretty b) (spaces_ind pretty deep b)
      rw [next_skip 123 q hs]
      rfl
    | cons k v l =>
      rw [textMap_body', List.append_assoc, ← List.append_assoc] at hq
      rcases prefix_app hq with h | ⟨r, rfl, hr⟩
      · rw [next_skip 123 q fun b hb => (List.mem_append.1 (h.mem hb)).elim (spaces_nl pretty b) (spaces_ind pretty _ b)]
        rfl
      · cases r with
        | nil =>
          rw [List.append_nil, next_skip 123 _ fun b hb => (List.mem_append.1 hb).elim (spaces_nl pretty b) (spaces_ind pretty _ b)]
          rfl
        | cons b r =>
          have hb : b = 34 := by
            simp only [bodyMap, List.cons_append, List.nil_append, List.append_assoc] at hr
            exact (List.cons_prefix_cons.1 hr).1
          subst hb
          rw [next_skip_to 123 _ r fun b hb => (List.mem_append.1 hb).elim (spaces_nl pretty b) (spaces_ind pretty _ b)]
          dsimp only
          rw [if_neg (by decide), if_neg (by decide),
            H k v l rfl r hr]
          rfl

set_option maxRecDepth 4000 in
mutual
/-- A cut-off value; a cut-off array or map that has begun is an error. -/
theorem read_cut (v : Val) (hv : Plain v) (d : Nat) (hd : depth v ≤ d) (deep : Nat) (p : Bytes)
    (hp : p <+: text pretty deep v) (hne : p ≠ text pretty deep v) : Cut (Json.read fp d 0 p) := by
  obtain ⟨d, rfl⟩ : ∃ e, d = e + 1 := ⟨d - 1, by have := depth_pos v; omega⟩
  cases v with
  | null =>
    have h4 : p.length ≤ 4 := hp.length_le
    have e : p = [110, 117, 108, 108].take p.length := List.prefix_iff_eq_take.1 hp
    have hl : p.length ≠ 4 := fun h => hne (by rw [e, h]; rfl)
    rw [e]
    have : p.length = 0 ∨ p.length = 1 ∨ p.length = 2 ∨ p.length = 3 := by omega
    rcases this with h | h | h | h <;> rw [h]
    · exact ⟨_, _, _, rfl, .inr rfl⟩
    · exact ⟨_, _, _, rfl, .inl rfl⟩
    · exact ⟨_, _, _, rfl, .inl rfl⟩
    · exact ⟨_, _, _, rfl, .inl rfl⟩
  | bool b =>
    cases b with
    | true =>
      have h4 : p.length ≤ 4 := hp.length_le
      have e : p = [116, 114, 117, 101].take p.length := List.prefix_iff_eq_take.1 hp
      have hl : p.length ≠ 4 := fun h => hne (by rw [e, h]; rfl)
      rw [e]
      have : p.length = 0 ∨ p.length = 1 ∨ p.length = 2 ∨ p.length = 3 := by omega
      rcases this with h | h | h | h <;> rw [h]
      · exact ⟨_, _, _, rfl, .inr rfl⟩
      · exact ⟨_, _, _, rfl, .inl rfl⟩
      · exact ⟨_, _, _, rfl, .inl rfl⟩
      · exact ⟨_, _, _, rfl, .inl rfl⟩
    | false =>
      have h4 : p.length ≤ 5 := hp.length_le
      have e : p = [102, 97, 108, 115, 101].take p.length := List.prefix_iff_eq_take.1 hp
      have hl : p.length ≠ 5 := fun h => hne (by rw [e, h]; rfl)
      rw [e]
      have : p.length = 0 ∨ p.length = 1 ∨ p.length = 2 ∨ p.length = 3 ∨ p.length = 4 := by omega
      rcases this with h | h | h | h | h <;> rw [h]
      · exact ⟨_, _, _, rfl, .inr rfl⟩
      · exact ⟨_, _, _, rfl, .inl rfl⟩
      · exact ⟨_, _, _, rfl, .inl rfl⟩
      · exact ⟨_, _, _, rfl, .inl rfl⟩
      · exact ⟨_, _, _, rfl, .inl rfl⟩
  | int i => exact cut_number fp i (by simpa [Plain] using hv) p hp d
  | real x => exact absurd hv (by simp [Plain])
  | str s =>
    simp only [Plain] at hv
    cases p with
    | nil => exact ⟨_, _, _, cut_eof rfl, .inr rfl⟩
    | cons c q =>
      have e : text pretty deep (.str s) = 34 :: (s ++ [34]) := by simp [text]
      rw [e] at hp hne
      obtain ⟨rfl, hq⟩ := List.cons_prefix_cons.1 hp
      rcases prefix_app hq with h | ⟨r, rfl, hr⟩
      · exact ⟨_, _, _, cut_string fp s hv.2 q h d, .inl rfl⟩
      · cases r with
        | nil => rw [List.append_nil]; exact ⟨_, _, _, cut_string fp s hv.2 s (List.prefix_refl _) d, .inl rfl⟩
        | cons x r =>
          obtain ⟨rfl, h⟩ := List.cons_prefix_cons.1 hr
          rw [List.prefix_nil.1 h] at hne
          exact absurd rfl hne
  | arr l =>
    simp only [Plain] at hv
    cases p with
    | nil => exact ⟨_, _, _, cut_eof rfl, .inr rfl⟩
    | cons c q =>
      have e : text pretty deep (.arr l) = 91 :: (textAll pretty deep l ++ [93]) := by simp [text]
      rw [e] at hp hne
      obtain ⟨rfl, hq⟩ := List.cons_prefix_cons.1 hp
      have hn : next 0 (91 :: q) = (91, 91 :: q) := next_zero _ (by decide)
      have hq : q <+: textAll pretty deep l := by
        rcases prefix_app hq with h | ⟨r, rfl, hr⟩
        · exact h
        · cases r with
          | nil => rw [List.append_nil]; exact List.prefix_refl _
          | cons x r =>
            obtain ⟨rfl, h⟩ := List.cons_prefix_cons.1 hr
            rw [List.prefix_nil.1 h] at hne
            exact absurd rfl hne
      refine ⟨-1, [], [], ?_, .inl rfl⟩
      simp only [Json.read, hn]
      rw [if_neg (by decide), if_pos (by trivial)]
      cases q with
      | nil =>
        have hn1 : next 1 [91] = (0, []) := rfl
        simp only [hn1]
        rfl
      | cons b q =>
        cases l with
        | nil => simp [textAll] at hq
        | cons v l =>
          obtain ⟨c, r, hc, hs⟩ := text_head pretty deep v (by simp only [PlainAll] at hv; exact hv.2.1)
          have hbc : b = c := by
            rw [textAll, hc] at hq
            exact (List.cons_prefix_cons.1 hq).1
          subst hbc
          have hn1 : next 1 (91 :: b :: q) = (chr b, b :: q) := next_one _ hs.1
          simp only [hn1]
          have hp := hs.2.1
          rw [if_neg (by omega), if_neg (fun e => hs.2.2.1 (chr_93 e)),
            elements_cut v l hv.2 d (by simp [depth] at hd; omega) deep _ (by simp) hq _ (Nat.le_refl _)]
          rfl
  | map l =>
    simp only [Plain] at hv
    by_cases h0 : p = []
    · subst h0; exact ⟨_, _, _, cut_eof rfl, .inr rfl⟩
    · refine ⟨_, _, _, map_cut_of fp pretty l d deep ?_ p hp hne h0, .inl rfl⟩
      intro k v l' e r hr
      subst e
      exact entries_cut k v l' hv.2 d (by simp [depth] at hd; omega) deep (34 :: r) (by simp) hr _ (Nat.le_refl _)
termination_by sizeOf v
decreasing_by
  all_goals (subst_vars; simp; try omega)
theorem elements_cut (v : Val) (l : Vals) (hv : PlainAll (.cons v l)) (d : Nat) (hd : depthAll (.cons v l) ≤ d)
    (deep : Nat) (q : Bytes) (hq0 : q ≠ []) (hq : q <+: textAll pretty deep (.cons v l)) (n : Nat) (hn : q.length ≤ n) :
    elements (Json.read fp d 0) n q = .ok none := by
  obtain ⟨n, rfl⟩ : ∃ m, n = m + 1 := by
    have : 0 < q.length := List.length_pos_iff.2 hq0
    exact ⟨n - 1, by omega⟩
  simp only [PlainAll] at hv
  simp only [depthAll] at hd
  rw [textAll, List.append_assoc] at hq
  rw [elements]
  rcases prefix_app hq with h | ⟨r, rfl, hr⟩
  · by_cases he : q = text pretty deep v
    · obtain ⟨token, hp, hr⟩ := read_text fp pretty v hv.1 d (by omega) deep [] (by intro b r h; cases h)
      rw [List.append_nil] at hr
      rw [he, hr, Res.bind_ok]
      have hn : next 0 [] = (0, []) := rfl
      simp only [hn]
      rw [if_neg (by omega), if_neg (by decide), if_pos (by decide)]
    · obtain ⟨rc, s, out, h1, h2⟩ := read_cut v hv.1 d (by omega) deep q h he
      rw [h1, Res.bind_ok]
      dsimp only
      rcases h2 with rfl | rfl
      · rw [if_pos (by decide)]
      · have hn : next 0 [] = (0, []) := rfl
        simp only [hn]
        split
        · rfl
        · rw [if_neg (by decide), if_pos (by decide)]
  · cases l with
    | nil =>
      simp only [textAll, Vals.len] at hr
      have hr : r = [] := List.prefix_nil.1 hr
      subst hr
      obtain ⟨token, hp, hr⟩ := read_text fp pretty v hv.1 d (by omega) deep [] (by intro b r h; cases h)
      rw [hr, Res.bind_ok]
      have hn : next 0 [] = (0, []) := rfl
      simp only [hn]
      rw [if_neg (by omega), if_neg (by decide), if_pos (by decide)]
    | cons w l =>
      have hw := hv.2
      simp only [PlainAll] at hw
      have hr : r <+: 44 :: 32 :: textAll pretty deep (.cons w l) := by
        simpa [Vals.len] using hr
      have hstop : Stops r := by
        cases r with
        | nil => intro b r h; cases h
        | cons x r =>
          obtain ⟨rfl, _⟩ := List.cons_prefix_cons.1 hr
          exact stops_cons _ (by decide)
      obtain ⟨token, hp, hread⟩ := read_text fp pretty v hv.1 d (by omega) deep r hstop
      rw [hread, Res.bind_ok]
      dsimp only
      rw [if_neg (by omega)]
      cases r with
      | nil =>
        have hn : next 0 [] = (0, []) := rfl
        simp only [hn]
        rw [if_neg (by decide), if_pos (by decide)]
      | cons x r =>
        obtain ⟨rfl, hr1⟩ := List.cons_prefix_cons.1 hr
        have hn0 : next 0 (44 :: r) = (44, 44 :: r) := next_zero _ (by decide)
        simp only [hn0]
        rw [if_neg (by decide), if_neg (by decide)]
        cases r with
        | nil =>
          have hn1 : next 1 [44] = (0, []) := rfl
          simp only [hn1]
          rw [if_pos (by decide)]
        | cons y r =>
          obtain ⟨rfl, hr2⟩ := List.cons_prefix_cons.1 hr1
          cases r with
          | nil =>
            have hn1 : next 1 [44, 32] = (0, []) := rfl
            simp only [hn1]
            rw [if_pos (by decide)]
          | cons z r =>
            obtain ⟨c, u, hc, hs⟩ := text_head pretty deep w hw.1
            have hz : z = c := by
              rw [textAll, hc] at hr2
              exact (List.cons_prefix_cons.1 hr2).1
            subst hz
            have hn1 : next 1 (44 :: 32 :: z :: r) = (chr z, z :: r) := next_one_space _ (by decide) hs.1
            have := hs.2.1
            simp only [hn1]
            rw [if_neg (by omega), elements_cut w l hv.2 d (by omega) deep (z :: r) (by simp) hr2 n
              (by simp only [List.length_append, List.length_cons] at hn ⊢; omega)]
            rfl
termination_by sizeOf (Vals.cons v l)
decreasing_by
  all_goals (subst_vars; simp; try omega)
theorem entries_cut (k : Bytes) (v : Val) (l : Maps) (hv : PlainMap (.cons k v l)) (d : Nat)
    (hd : depthMap (.cons k v l) ≤ d) (deep : Nat) (q : Bytes) (hq0 : q ≠ [])
    (hq : q <+: bodyMap pretty deep k v l ++ ind pretty deep) (n : Nat) (hn : q.length ≤ n) :
    entries (Json.read fp d) n q = .ok none := by
  obtain ⟨n, rfl⟩ : ∃ m, n = m + 1 := by
    have : 0 < q.length := List.length_pos_iff.2 hq0
    exact ⟨n - 1, by omega⟩
  simp only [PlainMap] at hv
  simp only [depthMap] at hd
  obtain ⟨d, rfl⟩ : ∃ e, d = e + 1 := ⟨d - 1, by omega⟩
  have e : bodyMap pretty deep k v l ++ ind pretty deep =
      (34 :: k) ++ (34 :: 58 :: 32 :: (text pretty (deep + 1) v ++ (sep pretty l ++ (textMap pretty deep l ++ ind pretty deep)))) := by
    cases pretty <;> simp [bodyMap, sep]
  rw [e] at hq
  rw [entries]
  have hstr : ∀ u, u <+: k → Json.read fp (d + 1) 0 (34 :: u) = .ok (-1, [], []) := fun u hu => cut_string fp k hv.1.2 u hu d
  have h00 : next 0 [] = (0, []) := rfl
  rcases prefix_app hq with h | ⟨r, rfl, hr⟩
  · cases q with
    | nil => exact absurd rfl hq0
    | cons c u =>
      obtain ⟨rfl, hu⟩ := List.cons_prefix_cons.1 h
      rw [hstr u hu, Res.bind_ok]
      rfl
  · cases r with
    | nil =>
      rw [List.append_nil, hstr k (List.prefix_refl _), Res.bind_ok]
      rfl
    | cons c r =>
      obtain ⟨rfl, hr1⟩ := List.cons_prefix_cons.1 hr
      have hk := read_str fp d hv.1.2 r
      rw [List.cons_append, hk, Res.bind_ok]
      dsimp only
      rw [if_neg (by decide)]
      cases r with
      | nil => rw [h00]; rfl
      | cons c r =>
        obtain ⟨rfl, hr2⟩ := List.cons_prefix_cons.1 hr1
        have h58 : next 0 (58 :: r) = (58, 58 :: r) := next_zero _ (by decide)
        rw [h58]
        dsimp only
        rw [if_neg (by decide)]
        cases r with
        | nil =>
          rw [cut_eof rfl, Res.bind_ok]
          rfl
        | cons c r =>
          obtain ⟨rfl, hr3⟩ := List.cons_prefix_cons.1 hr2
          have hrd : Json.read fp (d + 1) 1 (58 :: 32 :: r) = Json.read fp (d + 1) 0 r := by
            apply read_next
            simp [next]
            rfl
          rw [hrd]
          rcases prefix_app hr3 with h | ⟨r', rfl, hr4⟩
          · by_cases he : r = text pretty (deep + 1) v
            · obtain ⟨token, hp, hread⟩ := read_text fp pretty v hv.2.1 (d + 1) (by omega) (deep + 1) [] (by intro b r h; cases h)
              rw [List.append_nil] at hread
              rw [he, hread, Res.bind_ok]
              dsimp only
              rw [if_neg (by omega), h00]
              rfl
            · obtain ⟨rc, s, out, h1, h2⟩ := read_cut v hv.2.1 (d + 1) (by omega) (deep + 1) r h he
              rw [h1, Res.bind_ok]
              dsimp only
              rcases h2 with rfl | rfl
              · rfl
              · rw [h00]
                split
                · rfl
                · rfl
          · have hstop : Stops r' := by
              cases r' with
              | nil => intro b r h; cases h
              | cons x r' =>
                cases l with
                | nil =>
                  simp only [sep, textMap, List.nil_append] at hr4
                  cases pretty with
                  | true =>
                    have : x = 10 := (List.cons_prefix_cons.1 hr4).1
                    subst this
                    exact stops_cons _ (by decide)
                  | false => simp [Maps.len, ind] at hr4
                | cons k' v' l =>
                  have : x = 44 := by
                    cases pretty <;> simp [sep, Maps.len] at hr4 <;> exact hr4.1
                  subst this
                  exact stops_cons _ (by decide)
            obtain ⟨token, hp, hread⟩ := read_text fp pretty v hv.2.1 (d + 1) (by omega) (deep + 1) r' hstop
            rw [hread, Res.bind_ok]
            dsimp only
            rw [if_neg (by omega)]
            cases l with
            | nil =>
              have hs : ∀ b ∈ r', isspace b = true := fun b hb => by
                have := hr4.mem hb
                simp only [textMap, List.nil_append, List.mem_append] at this
                rcases this with h | h
                · cases pretty with
                  | true => simp [sep, Maps.len] at h; subst h; decide
                  | false => simp [sep, Maps.len] at h
                · exact spaces_ind pretty deep b h
              rw [next_spaces 0 r' hs (by omega)]
              rfl
            | cons k' v' l =>
              cases r' with
              | nil => rw [h00]; rfl
              | cons x r' =>
                have hx : x = 44 ∧ r' <+: ws pretty ++ (textMap pretty deep (.cons k' v' l) ++ ind pretty deep) := by
                  cases pretty <;> simp [sep, Maps.len, ws] at hr4 ⊢ <;> exact hr4
                obtain ⟨rfl, hr5⟩ := hx
                have h44 : next 0 (44 :: r') = (44, 44 :: r') := next_zero _ (by decide)
                rw [h44]
                dsimp only
                rw [if_neg (by decide), if_neg (by decide)]
                rw [textMap_body', List.append_assoc, ← List.append_assoc] at hr5
                rcases prefix_app hr5 with h | ⟨r, rfl, hr6⟩
                · rw [next_skip 44 r' fun b hb => (List.mem_append.1 (h.mem hb)).elim (spaces_ws pretty b) (spaces_ind pretty _ b)]
                  rfl
                · cases r with
                  | nil =>
                    rw [List.append_nil, next_skip 44 _ fun b hb => (List.mem_append.1 hb).elim (spaces_ws pretty b) (spaces_ind pretty _ b)]
                    rfl
                  | cons b r =>
                    have hb : b = 34 := by
                      simp only [bodyMap, List.cons_append, List.nil_append, List.append_assoc] at hr6
                      exact (List.cons_prefix_cons.1 hr6).1
                    subst hb
                    rw [next_skip_to 44 _ r fun b hb => (List.mem_append.1 hb).elim (spaces_ws pretty b) (spaces_ind pretty _ b)]
                    dsimp only
                    rw [if_neg (by decide),
                      entries_cut k' v' l hv.2.2 (d + 1) (by simp only [depthMap] at hd ⊢; omega) deep (34 :: r) (by simp) hr6 n
                        (by simp only [List.length_append, List.length_cons] at hn ⊢; omega)]
                    rfl
termination_by sizeOf (Maps.cons k v l)
decreasing_by
  all_goals (subst_vars; simp; try omega)
end

/-- A cut-off map is refused. -/
theorem parse_cut (l : Maps) (hv : Plain (.map l)) (d : Nat) (hd : depth (.map l) ≤ d) (deep : Nat) (p : Bytes)
    (hp : p <+: text pretty deep (.map l)) (hne : p ≠ text pretty deep (.map l)) (h0 : p ≠ []) :
    parse fp d p = .err "json parse error" := by
  obtain ⟨d, rfl⟩ : ∃ e, d = e + 1 := ⟨d - 1, by have := depth_pos (.map l); omega⟩
  simp only [Plain] at hv
  unfold parse
  rw [map_cut_of fp pretty l d deep ?_ p hp hne h0, Res.bind_ok]
  · rfl
  · intro k v l' e r hr
    subst e
    exact entries_cut fp pretty k v l' hv.2 d (by simp [depth] at hd; omega) deep (34 :: r) (by simp) hr _ (Nat.le_refl _)
end
end Json

namespace Config
open Data C34 C35 Json

/-- The saved text is the text of a map. -/
theorem saved_text {fmt : Nat → Bytes} {d : Nat} {cfg : List Var} (hd : 2 ≤ d) (hc : Table cfg)
    (hv : ∀ v ∈ cfg, Saved v → Valid d (fun s => delimited false s = true) SmallInt Plain v) :
    ∃ l, Plain (.map l) ∧ depth (.map l) ≤ d ∧ saveText fmt d cfg = .ok (text true 0 (.map l)) := by
  obtain ⟨L, hL, hval⟩ := choose_values hd (cfg.filter fun v => !v.is 16) (by
    intro v h
    rw [List.mem_filter] at h
    exact hv v h.1 (by simpa [Saved] using h.2))
  have hmem : ∀ p ∈ L, p.1 ∈ cfg ∧ p.1.is 16 = false := by
    intro p hp
    have : p.1 ∈ cfg.filter fun v => !v.is 16 := by rw [← hL]; exact List.mem_map_of_mem hp
    rw [List.mem_filter] at this
    exact ⟨this.1, by simpa using this.2⟩
  have hlen : L.length = 23 := by rw [← filter_len hc, ← hL, List.length_map]
  have hplain : Plain (.map (toMaps L)) := by
    refine ⟨by rw [toMaps_len]; omega, plainMap_toMaps L (fun p hp => (hval p hp).2.1) fun p hp => ?_⟩
    exact prepare_names _ (table_mem hc (hmem p hp).1)
  have hdep : depth (.map (toMaps L)) ≤ d := by
    have := depthMap_toMaps (d := d - 1) (by omega) L fun p hp => by have := (hval p hp).2.2.1; omega
    simp only [depth]; omega
  have henc : Encodes (.map (toMaps L)) (list_persistent cfg) := by
    refine ⟨_, _, .inl rfl, encodesMap_toMaps L fun p hp => (hval p hp).1, ?_⟩
    unfold list_persistent
    rw [← hL, toMaps_len, List.length_map, List.flatMap_map]
  refine ⟨toMaps L, hplain, hdep, ?_⟩
  have := export_text fmt true _ hplain d hdep 0 _ [] henc
  rw [List.append_nil] at this
  unfold saveText export_pretty
  rw [this, Res.bind_ok]

/-- A file with only a part of the saved text is refused. -/
theorem open_cut {fp : Bytes → Option (Nat × Nat)} {fmt : Nat → Bytes} {d : Nat} {cfg fresh : List Var} (hd : 2 ≤ d)
    (hc : Table cfg) (hv : ∀ v ∈ cfg, Saved v → Valid d (fun s => delimited false s = true) SmallInt Plain v)
    {t p : Bytes} {o : Option Bytes} (ht : saveText fmt d cfg = .ok t) (hp : p <+: t) (hne : p ≠ t) :
    ∃ m, open_ fp fmt d fresh ⟨some p, o⟩ = .err m := by
  obtain ⟨l, h1, h2, h3⟩ := saved_text (fmt := fmt) hd hc hv
  rw [ht] at h3
  have h3 := Res.ok.inj h3
  subst h3
  unfold open_
  dsimp only
  by_cases h0 : p = []
  · exact ⟨"pread", by rw [if_pos (by simp [h0])]⟩
  · refine ⟨"json parse error", ?_⟩
    rw [if_neg (by simp [h0]), set, parse_cut fp true l h1 d h2 0 p hp hne h0]
    rfl
end Config
end Verif
