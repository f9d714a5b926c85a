import Verif.Proofs.ParseExec

/-! The small parsers and the options of C58. -/
namespace Verif.C58
open Lex Parse

theorem kw_of_token {a : Item} {n : String} {s : List Nat} (h : token a = .keyword (.kw n) s) : Kw n a ∧ a = .word s := by
  cases a with
  | word w =>
    simp only [token] at h
    cases hf : findKeyword w with
    | none => rw [hf] at h; simp at h
    | some k =>
      rw [hf] at h
      simp only [Token.keyword.injEq] at h
      obtain ⟨rfl, rfl⟩ := h
      exact ⟨⟨w, rfl, (findKeyword_kw.1 hf).2⟩, rfl⟩
  | _ => simp [token] at h

theorem kw_of_isKw {a : Item} {n : String} (h : isKw n (token a) = true) : Kw n a := by
  cases e : token a with
  | keyword k s =>
    cases k with
    | kw m =>
      rw [e] at h
      simp only [isKw, beq_iff_eq] at h
      subst h
      exact (kw_of_token e).1
    | unit u => rw [e] at h; simp [isKw] at h
  | _ => rw [e] at h; simp [isKw] at h

/-! ### Backwards -/

section
variable {β : Type} {r : β × List Item} {l : List Item}

theorem ifKw_sound {n : String} {f : Bool → Prog β} (h : exec ((ifKw n).bind f) l = some r) :
    (∃ a l', l = a :: l' ∧ Kw n a ∧ exec (f true) l' = some r) ∨ exec (f false) l = some r := by
  cases l with
  | nil => exact Or.inr (by simpa [ifKw, Prog.bind, exec, isKw] using h)
  | cons a l =>
    simp only [ifKw, Prog.bind, exec] at h
    by_cases hk : isKw n (token a) = true
    · rw [if_pos hk] at h
      exact Or.inl ⟨a, l, rfl, kw_of_isKw hk, h⟩
    · rw [if_neg hk] at h
      exact Or.inr h

theorem kw_sound {n : String} {f : Unit → Prog β} (h : exec ((kw n).bind f) l = some r) :
    ∃ a l', l = a :: l' ∧ Kw n a ∧ exec (f ()) l' = some r := by
  cases l with
  | nil => simp [kw, Prog.bind, exec, isKw] at h
  | cons a l =>
    simp only [kw, Prog.bind, exec] at h
    by_cases hk : isKw n (token a) = true
    · rw [if_pos hk] at h
      exact ⟨a, l, rfl, kw_of_isKw hk, h⟩
    · rw [if_neg hk] at h
      simp at h

theorem int_sound {f : Nat → Prog β} (h : exec (int.bind f) l = some r) :
    ∃ n l', l = .int n :: l' ∧ exec (f n) l' = some r := by
  cases l with
  | nil => simp [int, Prog.bind, exec, isInt] at h
  | cons a l =>
    simp only [int, Prog.bind, exec] at h
    by_cases hk : isInt (token a) = true
    · obtain ⟨n, rfl⟩ := (isInt_token a).1 hk
      rw [if_pos hk] at h
      exact ⟨n, l, rfl, h⟩
    · rw [if_neg hk] at h
      simp [exec] at h

theorem isName_token {a : Item} (h : isName (token a) = true) : ∃ s, token a = .name s := by
  cases e : token a with
  | name s => exact ⟨s, rfl⟩
  | _ => rw [e] at h; simp [isName] at h

theorem isString_token {a : Item} (h : isString (token a) = true) : ∃ s, a = .string s := by
  cases a with
  | string s => exact ⟨s, rfl⟩
  | word s => simp only [token] at h; split at h <;> simp [isString] at h
  | int n => simp [token, isString] at h
  | symbol c => simp [token, isString] at h

theorem isSym_token {a : Item} {c : Nat} (h : isSym c (token a) = true) : a = .symbol c := by
  cases a with
  | string s => simp [token, isSym] at h
  | word s => simp only [token] at h; split at h <;> simp [isSym] at h
  | int n => simp [token, isSym] at h
  | symbol d => simpa [token, isSym] using h

theorem isEof_token (a : Item) : isEof (token a) = false := by
  have := token_ne_eof a
  cases e : token a <;> simp_all [isEof]

theorem name_sound {f : List Nat → Prog β} (h : exec (name.bind f) l = some r) :
    ∃ s a l', l = a :: l' ∧ Name s a ∧ exec (f s) l' = some r := by
  cases l with
  | nil => simp [name, Prog.bind, exec, isName] at h
  | cons a l =>
    simp only [name, Prog.bind, exec] at h
    by_cases hk : isName (token a) = true
    · obtain ⟨s, hs⟩ := isName_token hk
      rw [if_pos hk, hs] at h
      exact ⟨s, a, l, rfl, name_token.1 hs, h⟩
    · rw [if_neg hk] at h
      simp [exec] at h

theorem string_sound {f : List Nat → Prog β} (h : exec (string.bind f) l = some r) :
    ∃ s l', l = .string s :: l' ∧ exec (f s) l' = some r := by
  cases l with
  | nil => simp [string, Prog.bind, exec, isString] at h
  | cons a l =>
    simp only [string, Prog.bind, exec] at h
    by_cases hk : isString (token a) = true
    · obtain ⟨s, rfl⟩ := isString_token hk
      rw [if_pos hk] at h
      exact ⟨s, l, rfl, h⟩
    · rw [if_neg hk] at h
      simp [exec] at h

theorem sym_sound {c : Nat} {k : Option Token → Prog β} (h : exec (.lexIf (isSym c) k) l = some r) :
    (∃ l', l = .symbol c :: l' ∧ exec (k (some (.symbol c))) l' = some r) ∨ exec (k none) l = some r := by
  cases l with
  | nil => exact Or.inr (by simpa [exec, isSym] using h)
  | cons a l =>
    simp only [exec] at h
    by_cases hk : isSym c (token a) = true
    · rw [if_pos hk] at h
      have := isSym_token hk
      subst this
      exact Or.inl ⟨l, rfl, h⟩
    · rw [if_neg hk] at h
      exact Or.inr h

theorem eof_sound {k : Option Token → Prog β} (h : exec (.lexIf isEof k) l = some r) :
    (l = [] ∧ exec (k (some .eof)) [] = some r) ∨ exec (k none) l = some r := by
  cases l with
  | nil => exact Or.inl ⟨rfl, by simpa [exec, isEof] using h⟩
  | cons a l =>
    simp only [exec, isEof_token, Bool.false_eq_true, if_false] at h
    exact Or.inr h

theorem ret_sound {a : β} (h : exec (.ret a) l = some r) : r = (a, l) := by
  simpa [exec] using h.symm

end

/-! ### Forwards -/

section
variable {β : Type}

theorem ifKw_yes {n : String} {a : Item} (h : Kw n a) (hn : n ∈ keywords) (f : Bool → Prog β) (l : List Item) :
    exec ((ifKw n).bind f) (a :: l) = exec (f true) l := by
  simp [ifKw, Prog.bind, exec, (kw_token hn).2 h]

/-- The list does not start with this keyword. -/
def NotKw (n : String) (l : List Item) : Prop := ∀ a l', l = a :: l' → isKw n (token a) = false

theorem ifKw_no {n : String} {l : List Item} (h : NotKw n l) (f : Bool → Prog β) : exec ((ifKw n).bind f) l = exec (f false) l := by
  cases l with
  | nil => simp [ifKw, Prog.bind, exec, isKw]
  | cons a l => simp [ifKw, Prog.bind, exec, h a l rfl]

theorem kw_yes {n : String} {a : Item} (h : Kw n a) (hn : n ∈ keywords) (f : Unit → Prog β) (l : List Item) :
    exec ((kw n).bind f) (a :: l) = exec (f ()) l := by
  simp [kw, Prog.bind, exec, (kw_token hn).2 h]

theorem int_yes (n : Nat) (f : Nat → Prog β) (l : List Item) : exec (int.bind f) (.int n :: l) = exec (f n) l := by
  simp [int, Prog.bind, exec, token, isInt]

theorem name_yes {s : List Nat} {a : Item} (h : Name s a) (f : List Nat → Prog β) (l : List Item) :
    exec (name.bind f) (a :: l) = exec (f s) l := by
  simp [name, Prog.bind, exec, name_token.2 h, isName]

theorem string_yes (s : List Nat) (f : List Nat → Prog β) (l : List Item) : exec (string.bind f) (.string s :: l) = exec (f s) l := by
  simp [string, Prog.bind, exec, token, isString]

theorem sym_yes {c : Nat} (k : Option Token → Prog β) (l : List Item) :
    exec (.lexIf (isSym c) k) (.symbol c :: l) = exec (k (some (.symbol c))) l := by
  simp [exec, token, isSym]

/-- The list does not start with this symbol. -/
def NotSym (c : Nat) (l : List Item) : Prop := ∀ a l', l = a :: l' → a ≠ .symbol c

theorem sym_no {c : Nat} {l : List Item} (h : NotSym c l) (k : Option Token → Prog β) : exec (.lexIf (isSym c) k) l = exec (k none) l := by
  cases l with
  | nil => simp [exec, isSym]
  | cons a l =>
    simp only [exec]
    rw [if_neg]
    intro hs
    exact h a l rfl (isSym_token hs)

theorem eof_yes (k : Option Token → Prog β) : exec (.lexIf isEof k) [] = exec (k (some .eof)) [] := by simp [exec, isEof]

theorem eof_no (a : Item) (l : List Item) (k : Option Token → Prog β) : exec (.lexIf isEof k) (a :: l) = exec (k none) (a :: l) := by
  simp [exec, isEof_token]

end

theorem notKw_nil (n : String) : NotKw n [] := by intro a l e; simp at e

theorem notKw_kw {n m : String} {a : Item} (h : Kw m a) (hm : m ∈ keywords) (hne : m ≠ n) (l : List Item) : NotKw n (a :: l) := by
  intro b l' e
  rw [List.cons.injEq] at e
  obtain ⟨rfl, rfl⟩ := e
  obtain ⟨s, rfl, e⟩ := kw_token_eq hm h
  rw [e]
  simp [isKw, hne]

theorem notKw_name {n : String} {s : List Nat} {a : Item} (h : Name s a) (l : List Item) : NotKw n (a :: l) := by
  intro b l' e
  rw [List.cons.injEq] at e
  obtain ⟨rfl, rfl⟩ := e
  rw [name_token.2 h]
  rfl

theorem notKw_int (n : String) (m : Nat) (l : List Item) : NotKw n (.int m :: l) := by
  intro b l' e
  rw [List.cons.injEq] at e
  obtain ⟨rfl, rfl⟩ := e
  rfl

theorem notKw_sym (n : String) (c : Nat) (l : List Item) : NotKw n (.symbol c :: l) := by
  intro b l' e
  rw [List.cons.injEq] at e
  obtain ⟨rfl, rfl⟩ := e
  rfl

theorem notSym_nil (c : Nat) : NotSym c [] := by intro a l e; simp at e

theorem notSym_word (c : Nat) (s : List Nat) (l : List Item) : NotSym c (.word s :: l) := by
  intro b l' e
  rw [List.cons.injEq] at e
  obtain ⟨rfl, rfl⟩ := e
  simp

theorem notSym_sym {c d : Nat} (h : d ≠ c) (l : List Item) : NotSym c (.symbol d :: l) := by
  intro b l' e
  rw [List.cons.injEq] at e
  obtain ⟨rfl, rfl⟩ := e
  simpa using h

/-! ### Values and options -/

/-- An item read as a value. -/
inductive ValueOf : Kind → Val → Item → Prop
  | string {s} : ValueOf .string (.string s) (.string s)
  | int {n} : ValueOf .int (.int (toS64 n)) (.int n)
  | bool {b a} : Truth b a → ValueOf .bool (.bool b) a

theorem bind_assoc {α β γ : Type} (p : Prog α) (f : α → Prog β) (g : β → Prog γ) :
    (p.bind f).bind g = p.bind fun a => (f a).bind g := by
  induction p with
  | ret a => rfl
  | fail m => rfl
  | next k ih => simp only [Prog.bind]; congr 1; funext t; exact ih t
  | lexIf p k ih => simp only [Prog.bind]; congr 1; funext t; exact ih t
  | lexIfName k ih => simp only [Prog.bind]; congr 1; funext t; exact ih t

theorem value_sound {β : Type} {r : β × List Item} {l : List Item} {k : Kind} {f : Val → Prog β}
    (h : exec ((value k).bind f) l = some r) : ∃ v a l', l = a :: l' ∧ ValueOf k v a ∧ exec (f v) l' = some r := by
  cases k with
  | string =>
    rw [value, bind_assoc] at h
    obtain ⟨s, l', rfl, h⟩ := string_sound h
    exact ⟨_, _, _, rfl, .string, h⟩
  | int =>
    rw [value, bind_assoc] at h
    obtain ⟨s, l', rfl, h⟩ := int_sound h
    exact ⟨_, _, _, rfl, .int, h⟩
  | bool =>
    rw [value, bind_assoc] at h
    rcases ifKw_sound h with ⟨a, l', rfl, hk, h⟩ | h
    · exact ⟨_, _, _, rfl, .bool (.t hk), h⟩
    · dsimp only at h
      rw [bind_assoc] at h
      obtain ⟨a, l', rfl, hk, h⟩ := kw_sound h
      exact ⟨_, _, _, rfl, .bool (.f hk), h⟩

theorem value_yes {β : Type} {k : Kind} {v : Val} {a : Item} (h : ValueOf k v a) (f : Val → Prog β) (l : List Item) :
    exec ((value k).bind f) (a :: l) = exec (f v) l := by
  cases h with
  | string => rw [value, bind_assoc, string_yes]; rfl
  | int => rw [value, bind_assoc, int_yes]; rfl
  | bool h =>
    rw [value, bind_assoc]
    cases h with
    | t h => rw [ifKw_yes h (by decide +kernel)]; rfl
    | f h =>
      rw [ifKw_no (notKw_kw h (by decide +kernel) (by decide) l)]
      dsimp only
      rw [bind_assoc, kw_yes h (by decide +kernel)]
      rfl

/-- The table of options and the words that may be names are what the grammar says. -/
structure Table {σ : Type} (table : List (Opt σ)) (words : List String) (one : σ → List Nat → Item → σ → Nat → Prop) : Prop where
  sound : ∀ o ∈ table, ∀ c v c' a, ValueOf o.kind v a → o.set c v = some c' → one c (bytes o.name) a c' o.bit
  complete : ∀ c s a c' b, one c s a c' b → ∃ o v, table.find? (fun o => bytes o.name == s) = some o ∧ o.bit = b ∧ ValueOf o.kind v a ∧
    o.set c v = some c' ∧ (findKeyword s = none ∨ ∃ n ∈ words, findKeyword s = some (.kw n))

theorem optionLoop_sound {σ : Type} {table : List (Opt σ)} {words : List String} {one : σ → List Nat → Item → σ → Nat → Prop}
    (H : Table table words one) : ∀ (fuel : Nat) (c : σ) (m : Nat) (l : List Item) (r : σ × Nat) (l' : List Item),
    exec (optionLoop table words fuel c m) l = some (r, l') → ∃ pre, l = pre ++ .symbol 41 :: l' ∧ Opts one c m pre r.1 r.2
  | 0, _, _, _, _, _, h => by simp [optionLoop, exec] at h
  | fuel + 1, c, m, l, r, l', h => by
    rw [optionLoop] at h
    cases l with
    | nil => simp [exec, optionName] at h
    | cons a l =>
      simp only [exec] at h
      have hname : ∀ s, optionName words (token a) = some s → a = .word s := by
        intro s hs
        unfold optionName at hs
        split at hs
        · rename_i s' e
          simp only [Option.some.injEq] at hs
          subst hs
          exact (name_token.1 e).1
        · rename_i n s' e
          split at hs
          · simp only [Option.some.injEq] at hs
            subst hs
            exact (kw_of_token e).2
          · simp at hs
        · simp at hs
      generalize optionName words (token a) = o at h hname
      cases o with
      | none => simp [exec] at h
      | some s =>
        have := hname s rfl
        subst this
        dsimp only at h
        cases hf : table.find? (fun o => bytes o.name == s) with
        | none => rw [hf] at h; simp [exec] at h
        | some o =>
          rw [hf] at h
          dsimp only at h
          have hmem := List.mem_of_find?_eq_some hf
          have hs := List.find?_some hf
          simp only [beq_iff_eq] at hs
          subst hs
          obtain ⟨v, b, l2, rfl, hv, h⟩ := value_sound h
          cases hset : o.set c v with
          | none => rw [hset] at h; simp [exec] at h
          | some c' =>
            rw [hset] at h
            dsimp only at h
            have hone := H.sound o hmem c v c' b hv hset
            rcases sym_sound h with ⟨l3, rfl, h⟩ | h
            · obtain ⟨pre, rfl, hp⟩ := optionLoop_sound H fuel c' (m ||| o.bit) l3 r l' h
              exact ⟨.word (bytes o.name) :: b :: .symbol 44 :: pre, rfl, .more hone hp⟩
            · rcases sym_sound h with ⟨l3, rfl, h⟩ | h
              · have := ret_sound h
                simp only [Prod.mk.injEq] at this
                obtain ⟨rfl, rfl⟩ := this
                exact ⟨[.word (bytes o.name), b], rfl, .last hone⟩
              · simp [exec] at h

theorem Opts.length {σ : Type} {one : σ → List Nat → Item → σ → Nat → Prop} {c : σ} {m : Nat} {l : List Item} {c' : σ} {m' : Nat}
    (h : Opts one c m l c' m') : 2 ≤ l.length := by
  cases h <;> simp

theorem optionLoop_complete {σ : Type} {table : List (Opt σ)} {words : List String} {one : σ → List Nat → Item → σ → Nat → Prop}
    (H : Table table words one) {c : σ} {m : Nat} {pre : List Item} {c' : σ} {m' : Nat} (h : Opts one c m pre c' m') :
    ∀ (fuel : Nat) (l : List Item), pre.length < fuel →
    exec (optionLoop table words fuel c m) (pre ++ .symbol 41 :: l) = some ((c', m'), l) := by
  have first : ∀ (c : σ) (m : Nat) (s : List Nat) (v : Item) (c' : σ) (b fuel : Nat) (l : List Item), one c s v c' b →
      exec (optionLoop table words (fuel + 1) c m) (.word s :: v :: l) =
      exec (.lexIf (isSym 44) fun
            | some _ => optionLoop table words fuel c' (m ||| b)
            | none => .lexIf (isSym 41) fun
              | some _ => .ret (c', m ||| b)
              | none => .fail "')' expected") l := by
    intro c m s v c' b fuel l hone
    obtain ⟨o, val, h1, rfl, h3, h4, h5⟩ := H.complete c s v c' b hone
    rw [optionLoop]
    simp only [exec]
    have hn : optionName words (token (.word s)) = some s := by
      simp only [token]
      rcases h5 with e | ⟨n, hm, e⟩
      · rw [e]; rfl
      · rw [e]
        simp [optionName, hm]
    rw [hn]
    dsimp only
    rw [h1]
    dsimp only
    rw [value_yes h3, h4]
    rfl
  induction h with
  | last hone =>
    intro fuel l hf
    obtain ⟨fuel, rfl⟩ : ∃ k, fuel = k + 1 := ⟨fuel - 1, by omega⟩
    rw [show ∀ (x y z : Item), [x, y] ++ z :: l = x :: y :: z :: l from fun _ _ _ => rfl, first _ _ _ _ _ _ _ _ hone,
      sym_no (notSym_sym (by decide) l), sym_yes]
    rfl
  | more hone _ ih =>
    intro fuel l hf
    obtain ⟨fuel, rfl⟩ : ∃ k, fuel = k + 1 := ⟨fuel - 1, by omega⟩
    simp only [List.length_cons] at hf
    rw [List.cons_append, List.cons_append, first _ _ _ _ _ _ _ _ hone, List.cons_append, sym_yes]
    exact ih fuel l (by omega)

theorem options_sound {σ β : Type} {table : List (Opt σ)} {words : List String} {one : σ → List Nat → Item → σ → Nat → Prop}
    (H : Table table words one) {fuel : Nat} {c : σ} {l : List Item} {f : σ × Nat → Prog β} {r : β × List Item}
    (h : exec ((options table words fuel c).bind f) l = some r) :
    ∃ pre l' c' m, l = pre ++ l' ∧ Options one c pre c' m ∧ exec (f (c', m)) l' = some r := by
  rw [exec_bind] at h
  cases e : exec (options table words fuel c) l with
  | none => rw [e] at h; simp at h
  | some p =>
    rw [e] at h
    obtain ⟨⟨c', m⟩, l'⟩ := p
    simp only [Option.bind_some] at h
    suffices hs : ∃ pre, l = pre ++ l' ∧ Options one c pre c' m by
      obtain ⟨pre, h1, h2⟩ := hs
      exact ⟨pre, l', c', m, h1, h2, h⟩
    unfold options at e
    rcases sym_sound e with ⟨l2, rfl, e2⟩ | e
    · rcases sym_sound e2 with ⟨l3, rfl, e3⟩ | e3
      · have := ret_sound e3
        simp only [Prod.mk.injEq] at this
        obtain ⟨⟨rfl, rfl⟩, rfl⟩ := this
        exact ⟨[.symbol 40, .symbol 41], rfl, .empty⟩
      · obtain ⟨pre, rfl, hp⟩ := optionLoop_sound H _ _ _ _ _ _ e3
        exact ⟨.symbol 40 :: pre ++ [.symbol 41], by simp, .some hp⟩
    · have := ret_sound e
      simp only [Prod.mk.injEq] at this
      obtain ⟨⟨rfl, rfl⟩, rfl⟩ := this
      exact ⟨[], rfl, .none⟩

theorem Opts.head {σ : Type} {one : σ → List Nat → Item → σ → Nat → Prop} {c : σ} {m : Nat} {l : List Item} {c' : σ} {m' : Nat}
    (h : Opts one c m l c' m') : ∃ s l', l = .word s :: l' := by
  cases h <;> exact ⟨_, _, rfl⟩

theorem options_complete {σ β : Type} {table : List (Opt σ)} {words : List String} {one : σ → List Nat → Item → σ → Nat → Prop}
    (H : Table table words one) {fuel : Nat} {c c' : σ} {m : Nat} {pre l : List Item} (h : Options one c pre c' m)
    (hf : pre.length < fuel) (hl : pre = [] → NotSym 40 l) (f : σ × Nat → Prog β) :
    exec ((options table words fuel c).bind f) (pre ++ l) = exec (f (c', m)) l := by
  rw [exec_bind]
  suffices hs : exec (options table words fuel c) (pre ++ l) = some ((c', m), l) by rw [hs]; rfl
  unfold options
  cases h with
  | none => rw [List.nil_append, sym_no (hl rfl)]; rfl
  | empty => rw [show ∀ (x y : Item), [x, y] ++ l = x :: y :: l from fun _ _ => rfl, sym_yes]; dsimp only; rw [sym_yes]; rfl
  | some ho =>
    rename_i pre
    rw [show Item.symbol 40 :: pre ++ [.symbol 41] ++ l = .symbol 40 :: (pre ++ .symbol 41 :: l) by simp, sym_yes]
    dsimp only
    obtain ⟨s, l', e⟩ := ho.head
    rw [sym_no (by rw [e]; exact notSym_word _ _ _)]
    exact optionLoop_complete H ho fuel l (by simp at hf; omega)

end Verif.C58
