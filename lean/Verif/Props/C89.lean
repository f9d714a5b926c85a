import Verif.Proofs.C89

/-! C89: texts show what they are given. -/

namespace Verif.C89
open Verif.Messages

/-- The calls that do not: the HTTP status of a request that failed, the debug log of
libcurl, the signature of a request (its digits are not terminated, C57), and the
counts of a log record as `int`. -/
def wrong : List (String × Nat) :=
  [("cloud/s3/s3_request.c", 258), ("cloud/s3/s3_request.c", 160),
   ("cloud/s3/s3_request.c", 124), ("main/main/execute.c", 203)]

/-- Every other text of the program shows all values it is given, in their order and
whatever characters they have, between the words of its format. -/
theorem C89_partial : ∀ s ∈ sites, (s.file, s.line) ∉ wrong → Right s := by
  have h : sites.all (fun s => wrong.contains (s.file, s.line) ||
      (match fit (tokens none (Decode.cstr s.fmt)) s.kinds with
       | some ws => split false (Decode.cstr s.fmt) == some ws
       | none => false)) = true := by
    decide +kernel
  intro s hs hw
  have := (List.all_eq_true.mp h) s hs
  rcases Bool.or_eq_true .. ▸ this with h | h
  · exact absurd (List.contains_iff_mem.mp h) hw
  · cases hf : fit (tokens none (Decode.cstr s.fmt)) s.kinds with
    | none => rw [hf] at h; cases h
    | some ws => rw [hf] at h; exact right_of_fit s ws hf (eq_of_beq h)

/-- A text without `%` is what is shown, as it is. -/
theorem C89_plain (fmt : String) (h : 37 ∉ Decode.cstr fmt) :
    vprintf fmt [] = .ok (Decode.cstr fmt) := by
  unfold vprintf
  generalize Decode.cstr fmt = w at h
  induction w with
  | nil => rfl
  | cons c w ih =>
    have hc : c ≠ 37 := fun e => h (by simp [e])
    rw [tokens, if_neg hc, render, ih (fun e => h (by simp [e]))]
    rfl

example : 37 ∉ Decode.cstr "wal: $lsn is invalid" := by decide +kernel

/-- `error("s3: HTTP %d (%s)", ...)`, s3_request.c:258. -/
def httpSite : Site := ⟨"cloud/s3/s3_request.c", 258, "s3: HTTP %d (%s)", [.text, .int, .string]⟩

/-- `log("s3 %.*s: %s%.*s", ...)`, s3_request.c:160. -/
def debugSite : Site :=
  ⟨"cloud/s3/s3_request.c", 160, "s3 %.*s: %s%.*s", [.text, .string, .sized]⟩

/-- `snprintf(..., "AWS %.*s:%s", ...)`, s3_request.c:124. -/
def signSite : Site := ⟨"cloud/s3/s3_request.c", 124, "AWS %.*s:%s", [.text, .full]⟩

/-- `buf_printf(buf, "[%" PRIu64 ", %d, %d, %d]\n", ...)`, execute.c:203. -/
def recordSite : Site :=
  ⟨"main/main/execute.c", 203, "[%lu, %d, %d, %d]\n", [.u64, .u8, .u32, .u32]⟩

theorem wrong_sites : [httpSite, debugSite, signSite, recordSite].all (sites.contains ·) = true := by
  decide +kernel

/-- What the message of a failed request is: the length of the name of the cloud as the
status, and that name as the reason.  The status and the reason are not in it. -/
theorem C89_status (name rest : Bytes) (code : Int) (reason : Arg) (h : Plain name) :
    vprintf httpSite.fmt [.int name.length, .str (some (name ++ 0 :: rest)), .int code, reason] =
      .ok (Decode.cstr "s3: HTTP " ++ digits 10 name.length ++ Decode.cstr " (" ++ name ++
        Decode.cstr ")") := by
  have ht : tokens none (Decode.cstr httpSite.fmt) =
      (Decode.cstr "s3: HTTP ").map .lit ++ .conv { letter := 100 } ::
      ((Decode.cstr " (").map .lit ++ [.conv { letter := 115 }, .lit 41]) := by decide +kernel
  have hl : ∀ (w : Bytes) ts args, render (w.map .lit ++ ts) args = (render ts args).map (w ++ ·) := by
    intro w ts args
    induction w with
    | nil => cases h : render ts args <;> simp [h, Res.map, Res.bind]
    | cons c w ih =>
      simp only [List.map_cons, List.cons_append, render, ih]
      cases render ts args <;> rfl
  have hn : ¬ ((name.length : Int) < 0) := by omega
  have h41 : Decode.cstr ")" = [41] := by decide +kernel
  unfold vprintf
  rw [ht, hl, h41]
  generalize Decode.cstr "s3: HTTP " = w1
  simp only [render, conv1]
  rw [if_neg (by decide), if_neg (by decide), if_neg (by decide), if_neg (by decide),
    if_pos (by decide)]
  simp [takeInt, Res.map, Res.bind, signedText, hn, padNum, pad, hl, render, conv1, precOf,
    takeStr, chars_zero name rest h.1]

example : ∃ name : Bytes, Plain name := ⟨Decode.cstr "minio", by unfold Plain; decide +kernel⟩

theorem weave_mem {ws vs out} (h : Weave ws vs out) : ∀ t, Value.text t ∈ vs → ∀ c ∈ t, c ∈ out := by
  induction h with
  | last w => intro t ht; cases ht
  | next w ws v vs t' out h1 _ ih =>
    intro t ht c hc
    rcases List.mem_cons.mp ht with rfl | ht
    · obtain ⟨k, rfl⟩ := h1
      simp [hc]
    · have := ih t ht c hc
      simp [this]

/-- These calls are wrong: the first shows none of the reason, the others are
undefined for some values (the second for all). -/
theorem C89_wrong : ¬ Right httpSite ∧ ¬ Right debugSite ∧ ¬ Right signSite ∧
    ¬ Right recordSite := by
  refine ⟨?_, ?_, ?_, ?_⟩
  · rintro ⟨ws, -, h⟩
    obtain ⟨out, h1, h2⟩ := h [.text [97], .num 403, .text [120]]
      [.int 1, .str (some [97, 0]), .int 403, .str (some [120, 0])]
      (.cons _ _ [.int 1, .str (some [97, 0])] _ _ _ (.text [97] [0] (by unfold Plain; decide))
        (.cons _ _ [.int 403] _ _ _ (.int 403 (by decide) (by decide))
          (.cons _ _ [.str (some [120, 0])] _ _ _ (.string [120] [] (by unfold Plain; decide)) .nil)))
    have hs := C89_status [97] [] 403 (.str (some [120, 0])) (by unfold Plain; decide)
    have h1 := h1.symm.trans hs
    injection h1 with h1
    have := weave_mem h2 [120] (by simp) 120 (by simp)
    rw [h1] at this
    revert this
    decide +kernel
  · rintro ⟨ws, -, h⟩
    obtain ⟨out, h1, _⟩ := h [.text [], .text [], .text []]
      [.int 0, .str (some []), .str (some [0]), .ulong 0, .str (some [])]
      (.cons _ _ [.int 0, .str (some [])] _ _ _ (.text [] [] (by unfold Plain; decide))
        (.cons _ _ [.str (some [0])] _ _ _ (.string [] [] (by unfold Plain; decide))
          (.cons _ _ [.ulong 0, .str (some [])] _ _ _ (.sized [] [] (by unfold Plain; decide)) .nil)))
    have : (match vprintf debugSite.fmt
        [.int 0, .str (some []), .str (some [0]), .ulong 0, .str (some [])] with
        | .ub _ => true | _ => false) = true := by decide +kernel
    rw [h1] at this; cases this
  · rintro ⟨ws, -, h⟩
    obtain ⟨out, h1, _⟩ := h [.text [], .text [65]] [.int 0, .str (some []), .str (some [65])]
      (.cons _ _ [.int 0, .str (some [])] _ _ _ (.text [] [] (by unfold Plain; decide))
        (.cons _ _ [.str (some [65])] _ _ _ (.full [65] (by unfold Plain; decide)) .nil))
    have : (match vprintf signSite.fmt [.int 0, .str (some []), .str (some [65])] with
        | .ub _ => true | _ => false) = true := by decide +kernel
    rw [h1] at this; cases this
  · rintro ⟨ws, -, h⟩
    obtain ⟨out, h1, _⟩ := h [.num (0 : Nat), .num (0 : Nat), .num (2147483648 : Nat), .num (0 : Nat)]
      [.ulong 0, .int (0 : Nat), .uint 2147483648, .uint 0]
      (.cons _ _ [.ulong 0] _ _ _ (.u64 0 (by decide))
        (.cons _ _ [.int (0 : Nat)] _ _ _ (.u8 0 (by decide))
          (.cons _ _ [.uint 2147483648] _ _ _ (.u32 2147483648 (by decide))
            (.cons _ _ [.uint 0] _ _ _ (.u32 0 (by decide)) .nil))))
    have : (match vprintf recordSite.fmt [.ulong 0, .int (0 : Nat), .uint 2147483648, .uint 0] with
        | .ub _ => true | _ => false) = true := by decide +kernel
    rw [h1] at this; cases this

/-- Not every text shows what it is given. -/
theorem C89_false : ¬ Full := by
  intro h
  have hm : httpSite ∈ sites := by
    have := (List.all_eq_true.mp wrong_sites) httpSite (by simp)
    exact List.contains_iff_mem.mp this
  exact C89_wrong.1 (h httpSite hm)

/-- The debug log passes a `size_t` where an `int` is read, whatever it logs. -/
theorem C89_debug (name rest pre rest' : Bytes) (n : Nat) (data : Arg) (h : Plain name)
    (h' : Plain pre) :
    ∃ m, vprintf debugSite.fmt [.int name.length, .str (some (name ++ rest)),
      .str (some (pre ++ 0 :: rest')), .ulong n, data] = .ub m := by
  have ht : tokens none (Decode.cstr debugSite.fmt) =
      [.lit 115, .lit 51, .lit 32, .conv { prec := .star, letter := 115 }, .lit 58, .lit 32,
       .conv { letter := 115 }, .conv { prec := .star, letter := 115 }] := by decide +kernel
  have hn : ¬ ((name.length : Int) < 0) := by omega
  refine ⟨"no int", ?_⟩
  unfold vprintf
  rw [ht]
  simp [render, conv1, precOf, takeInt, takeStr, Res.map, Res.bind, hn,
    chars_prec name rest h.1, chars_zero pre rest' h'.1]

/-- A name with `%` in it is shown as it is. -/
example : (match vprintf "storage '%.*s': cloud '%.*s' not exists"
    [.int 2, .str (some (Decode.cstr "%s")), .int 4, .str (some (Decode.cstr "a%nbc"))] with
    | .ok t => t == Decode.cstr "storage '%s': cloud 'a%nb' not exists" | _ => false) = true := by
  decide +kernel

/-- The statement is about calls that there are. -/
example : Call [.text, .u64] [.text [97, 37], .num (7 : Nat)]
    [.int (2 : Nat), .str (some [97, 37, 98]), .ulong 7] :=
  .cons _ _ [.int (2 : Nat), .str (some [97, 37, 98])] _ _ _
    (.text [97, 37] [98] (by unfold Plain; decide))
    (.cons _ _ [.ulong 7] _ _ _ (.u64 7 (by decide)) .nil)

end Verif.C89
