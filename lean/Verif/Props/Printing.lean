import Verif.Model.Printing
import Verif.Props.CStr
import Verif.Props.Numbers
/-!
# Property C36: formatted printing

A format is given by its parts, `Conv` being a conversion together with the argument passed for it. `fmtText` and `fmtArgs` are what
is passed to `c_str_fmt_va`, `rendered` what a reader of the format expects.
-/
namespace Verif.Fmt

/-- A conversion and its argument. `tail` is what lies behind the text in memory. -/
inductive Conv where
  /-- `%S` with a `Str` -/
  | str (s tail : Bytes)
  /-- `%S` with the `Str` of a node whose name was never set (null pointer, length 0) -/
  | nullStr
  /-- `%SB` with a string builder -/
  | sb (s tail : Bytes)
  /-- `%s` with a C string -/
  | cstr (s tail : Bytes)
  /-- `%.*s` with a length and a pointer -/
  | len (s tail : Bytes)
  /-- `%*s` with the length of the string, as code_serialization.cpp 690 uses it -/
  | width (s tail : Bytes)
  /-- `%d` with an `int` -/
  | int (v : Int)
  /-- `%u` with an `unsigned int` -/
  | uint (v : Nat)
  /-- `%lld` with a `long long` -/
  | llong (v : Int)
  /-- `%c` -/
  | char (c : UInt8)
  /-- `%%` -/
  | percent
  deriving DecidableEq, Repr

/-- The conversion as it is written in the format. -/
def Conv.code : Conv → Bytes
  | .str .. | .nullStr => b!"%S"
  | .sb .. => b!"%SB"
  | .cstr .. => b!"%s"
  | .len .. => b!"%.*s"
  | .width .. => b!"%*s"
  | .int _ => b!"%d"
  | .uint _ => b!"%u"
  | .llong _ => b!"%lld"
  | .char _ => b!"%c"
  | .percent => b!"%%"

/-- The arguments the conversion takes. -/
def Conv.args : Conv → List Arg
  | .str s t => [.str (some (s ++ t)) s.length]
  | .nullStr => [.str none 0]
  | .sb s t => [.sb (s ++ t) s.length]
  | .cstr s t => [.cstr (some (s ++ 0 :: t))]
  | .len s t => [.int s.length, .cstr (some (s ++ t))]
  | .width s t => [.int s.length, .cstr (some (s ++ 0 :: t))]
  | .int v => [.int v]
  | .uint v => [.int v]
  | .llong v => [.int v]
  | .char c => [.int c.toNat]
  | .percent => []

/-- The text it stands for. -/
def Conv.text : Conv → Bytes
  | .str s _ | .sb s _ | .cstr s _ | .len s _ | .width s _ => s
  | .nullStr => b!"(null)"
  | .int v | .llong v => Num.signedText 10 v
  | .uint v => (Num.D 10 v).map Num.chr
  | .char c => [c]
  | .percent => b!"%"

/-- The arguments are what the conversion expects: texts without NUL bytes (and of a length that is an `int` where it is passed as
one), numbers in range. -/
def Conv.Ok : Conv → Prop
  | .str s _ | .sb s _ | .cstr s _ => (0 : UInt8) ∉ s
  | .len s _ => (0 : UInt8) ∉ s ∧ s.length < 2 ^ 31
  | .width s _ => (0 : UInt8) ∉ s ∧ s.length < 2 ^ 31 ∧ s ≠ []
  | .int v => -(2 ^ 31) ≤ v ∧ v < 2 ^ 31
  | .uint v => v < 2 ^ 32
  | .llong v => -(2 ^ 63) < v ∧ v < 2 ^ 63
  | .char c => c ≠ 0
  | _ => True

/-- `%S` followed by a `B` is read as `%SB`. -/
def Conv.isS : Conv → Bool
  | .str .. | .nullStr => true
  | _ => false

/-- The format: literal text before each conversion, and after the last one. -/
def fmtText : List (Bytes × Conv) → Bytes → Bytes
  | [], last => last ++ [0]
  | (l, c) :: r, last => l ++ (c.code ++ fmtText r last)

def fmtArgs (items : List (Bytes × Conv)) : List Arg := items.flatMap fun p => p.2.args

/-- What the format stands for. -/
def rendered : List (Bytes × Conv) → Bytes → Bytes
  | [], last => last
  | (l, c) :: r, last => l ++ (c.text ++ rendered r last)

/-- A literal: no `%`, no NUL. -/
def OkLit (l : Bytes) : Prop := (0 : UInt8) ∉ l ∧ (37 : UInt8) ∉ l

/-- A well-formed format. -/
def OkFmt : List (Bytes × Conv) → Bytes → Prop
  | [], last => OkLit last
  | (l, c) :: r, last => OkLit l ∧ c.Ok ∧ (c.isS → (fmtText r last).head? ≠ some 66) ∧ OkFmt r last

/-! ## Lemmas -/

/-- A text written at the end of `pre` if it fits into `m` bytes, and nothing otherwise. -/
def out (pre tl : Bytes) (m : Nat) (t : Bytes) : Bytes × Nat :=
  if t.length ≤ m then (pre ++ (t ++ tl.drop t.length), t.length) else (pre ++ tl, 0)

theorem copyLoop_exact : ∀ (s t d : Bytes), (0 : UInt8) ∉ s → s.length ≤ d.length →
    CStr.copyLoop d (s ++ t) s.length = .ok (s ++ d.drop s.length, s.length)
  | [], t, d, _, _ => by simp [CStr.copyLoop]
  | b :: s, t, d, h, hd => by
    simp only [List.mem_cons, not_or] at h
    have hb : ¬ b = 0 := fun e => h.1 e.symm
    cases d with
    | nil => simp at hd
    | cons x d =>
      simp at hd
      simp [CStr.copyLoop, hb, copyLoop_exact s t d h.2 hd]

theorem copyAt_exact {pre tl s t : Bytes} (h : (0 : UInt8) ∉ s) (hl : s.length ≤ tl.length) :
    copyAt (pre ++ tl) pre.length (some (s ++ t)) s.length = .ok (pre ++ (s ++ tl.drop s.length), s.length) := by
  unfold copyAt
  rw [if_pos (by simp)]
  simp [CStr.copyNulpad, copyLoop_exact s t tl h hl]

/-- Printing a text of known length, no width. -/
theorem printString_prec {pre tl s t : Bytes} {m : Nat} {info : Info} (h : (0 : UInt8) ∉ s) (hl : s.length ≤ m → s.length ≤ tl.length)
    (hw : info.width = 0) (hf : info.widthFlag = false) (hu : info.upper = false) (hlo : info.lower = false)
    (hp : info.precision = s.length) :
    printString (pre ++ tl) pre.length m info (some (s ++ t)) = .ok (out pre tl m s) := by
  unfold printString
  rw [if_neg (by simp), if_pos (by omega), hp]
  simp only [Res.ok_bind, Int.toNat_natCast, hw, hf, Bool.false_eq_true, and_false, if_false, true_or, if_true, out]
  by_cases hm : s.length ≤ m
  · rw [if_neg (by omega), if_pos hm, copyAt_exact h (hl hm)]
    simp only [Res.ok_bind]
    rw [if_neg (by omega)]
    simp [caseConv, hu, hlo]
  · rw [if_pos (by omega), if_neg hm]

/-- Printing a C string, no width. -/
theorem printString_cstr {pre tl s t : Bytes} {m : Nat} {info : Info} (h : (0 : UInt8) ∉ s) (hl : s.length ≤ m → s.length ≤ tl.length)
    (hw : info.width = 0) (hf : info.widthFlag = false) (hu : info.upper = false) (hlo : info.lower = false)
    (hp : info.precision = -1) :
    printString (pre ++ tl) pre.length m info (some (s ++ 0 :: t)) = .ok (out pre tl m s) := by
  unfold printString
  rw [if_neg (by simp), if_neg (by omega)]
  simp only [CStr.len_spec s t h, Res.ok_bind, hw, hf, Bool.false_eq_true, and_false, if_false, true_or, if_true, out]
  by_cases hm : s.length ≤ m
  · rw [if_neg (by omega), if_pos hm, copyAt_exact h (hl hm)]
    simp only [Res.ok_bind]
    rw [if_neg (by omega)]
    simp [caseConv, hu, hlo]
  · rw [if_pos (by omega), if_neg hm]

/-- Printing a C string in a field of its own width. -/
theorem printString_width {pre tl s t : Bytes} {m : Nat} {info : Info} (h : (0 : UInt8) ∉ s) (hl : s.length ≤ m → s.length ≤ tl.length)
    (hs : s ≠ []) (hw : info.width = s.length) (hm0 : info.minus = false) (hu : info.upper = false) (hlo : info.lower = false)
    (hp : info.precision = -1) :
    printString (pre ++ tl) pre.length m info (some (s ++ 0 :: t)) = .ok (out pre tl m s) := by
  have hpos : 0 < s.length := List.length_pos_iff.2 hs
  unfold printString
  rw [if_neg (by simp), if_neg (by omega)]
  simp only [CStr.len_spec s t h, Res.ok_bind, hm0, Bool.false_eq_true, or_false, out]
  rw [if_neg (by omega), if_neg (by omega), if_pos (by omega)]
  have : (info.width - (s.length : Int)).toNat = 0 := by omega
  rw [this]
  have hz : ∀ (p : UInt8) (b : Bytes) (i : Nat), padLoop p 0 m b i = .ok (b, 0) := by intro p b i; rfl
  rw [hz]
  simp only [Res.ok_bind, Nat.zero_add, Nat.add_zero]
  by_cases hm : s.length ≤ m
  · rw [if_neg (by omega), if_pos hm, copyAt_exact h (hl hm)]
    simp [caseConv, hu, hlo]
  · rw [if_pos (by omega), if_neg hm]

theorem printString_null {pre tl : Bytes} {m : Nat} {info : Info} (hl : 6 ≤ m → 6 ≤ tl.length)
    (hw : info.width = 0) (hf : info.widthFlag = false) (hu : info.upper = false) (hlo : info.lower = false)
    (hp : info.precision = (0 : Nat)) :
    printString (pre ++ tl) pre.length m info none = .ok (out pre tl m b!"(null)") := by
  unfold printString out
  have h6 : (b!"(null)" : Bytes).length = 6 := rfl
  by_cases hm : 6 ≤ m
  · rw [if_pos ⟨rfl, hm⟩, if_pos (by rw [h6]; exact hm)]
    have := copyAt_exact (pre := pre) (tl := tl) (s := b!"(null)") (t := [0]) (by decide) (by rw [h6]; exact hl hm)
    exact this
  · have hn : ¬ (b!"(null)" : Bytes).length ≤ m := by rw [h6]; omega
    simp only [if_neg hn]
    rw [if_neg (by simp; omega), if_pos (by omega), hp]
    simp only [Res.ok_bind, hw, hf, Bool.false_eq_true, and_false, if_false, true_or, if_true]
    rw [if_neg (by simp)]
    unfold copyAt
    rw [if_pos (by simp)]
    simp [CStr.copyNulpad, caseConv, hu, hlo]

theorem literalRun_spec {m : Nat} (hm : m ≠ 0) : ∀ (l pre tl rest : Bytes), OkLit l → l.length ≤ tl.length →
    (rest.head? = some 0 ∨ rest.head? = some 37) →
    literalRun m (l ++ rest) (pre ++ tl) pre.length = .ok (rest, pre ++ (l ++ tl.drop l.length), pre.length + l.length)
  | [], pre, tl, rest, _, _, hr => by
    cases rest with
    | nil => simp at hr
    | cons c cs =>
      simp only [List.head?_cons, Option.some.injEq] at hr
      have : c = 0 ∨ c = 37 ∨ m = 0 := by rcases hr with h | h <;> simp [h]
      simp [literalRun, this]
  | a :: l, pre, tl, rest, ho, hl, hr => by
    cases tl with
    | nil => simp at hl
    | cons x tl =>
      obtain ⟨h0, h37⟩ := ho
      simp only [List.mem_cons, not_or] at h0 h37
      have hc : ¬ (a = 0 ∨ a = 37 ∨ m = 0) := by
        rintro (h | h | h)
        · exact h0.1 h.symm
        · exact h37.1 h.symm
        · exact hm h
      simp only [List.cons_append, literalRun, if_neg hc]
      rw [Num.put_split pre tl x a _ rfl]
      have := literalRun_spec hm l (pre ++ [a]) tl rest ⟨h0.2, h37.2⟩ (by simpa using hl) hr
      simp only [List.length_append, List.length_singleton, List.append_assoc, List.singleton_append] at this
      simp only [Res.ok_bind, this, List.length_cons, List.drop_succ_cons]
      congr 3
      omega

theorem scan_none (lt : Bool) (c : UInt8) (cs : Bytes) (h : charIsDigit c = false) (h2 : c ≠ 45) :
    Num.cStrToI64 lt (c :: cs) 10 = .ok (0, 0) := by
  unfold Num.cStrToI64 Num.scan
  simp [h2, Num.skip0x, Num.scanDigits, Num.digitOf, h]

/-- The part of a turn behind the literal run. -/
def afterLit (lt : Bool) (fmt buf : Bytes) (pos rem : Nat) (as : List Arg) : Res State :=
  (match fmt with
   | [] => Res.ub
   | c :: cs => if c = 37 then flagLoop cs {} else Res.ok (fmt, {})).bind fun (fmt, info) =>
  (widthPart lt fmt info as).bind fun (fmt, info, args) =>
  (precisionPart lt fmt info args).bind fun (fmt, info, args) =>
  (sizePart fmt info).bind fun (fmt, info) =>
  (convPart fmt buf pos rem info args).bind fun (fmt, buf, len, args) =>
  .ok { fmt := fmt, buf := buf, pos := pos + len, args := args,
        remaining := if len ≥ rem then min rem 1 else rem - len }

theorem turn_eq (lt : Bool) (s : State) :
    turn lt s = (literalRun s.remaining s.fmt s.buf s.pos).bind fun (fmt, buf, pos) => afterLit lt fmt buf pos s.remaining s.args := rfl

theorem bmod_int {v : Int} (h1 : -(2 ^ 31) ≤ v) (h2 : v < 2 ^ 31) : Int.bmod v (2 ^ 32) = v := by
  apply Int.bmod_eq_of_le_mul_two <;> omega

theorem bmod_llong {v : Int} (h1 : -(2 ^ 63) ≤ v) (h2 : v < 2 ^ 63) : Int.bmod v (2 ^ 64) = v := by
  apply Int.bmod_eq_of_le_mul_two <;> omega

theorem signed_no_nul (v : Int) : (0 : UInt8) ∉ Num.signedText 10 v := by
  unfold Num.signedText
  intro h
  rcases List.mem_append.1 h with h | h
  · revert h; split <;> decide
  · exact Num.text_no_nul (by omega) (by omega) _ h

theorem printI64_spec {pre tl : Bytes} {m : Nat} {info : Info} {v : Int} (h1 : -(2 ^ 63) < v) (h2 : v < 2 ^ 63)
    (hl : (Num.signedText 10 v).length ≤ m → (Num.signedText 10 v).length ≤ tl.length)
    (hb : info.base = 10) (hw : info.width = 0) (hf : info.widthFlag = false) (hu : info.upper = false) (hlo : info.lower = false)
    (hp : info.precision = -1) : printI64 (pre ++ tl) pre.length m info v = .ok (out pre tl m (Num.signedText 10 v)) := by
  unfold printI64
  have := Num.signed_len (b := 10) (by omega) v h1 h2
  rw [hb, Num.i64ToStr_eq (by omega) (by omega) v h1 h2 _ (by simp; omega)]
  simp only [Res.ok_bind]
  exact printString_cstr (signed_no_nul v) hl hw hf hu hlo hp

theorem printU64_spec {pre tl : Bytes} {m : Nat} {info : Info} {v : Nat} (h2 : v < 2 ^ 32)
    (hl : ((Num.D 10 v).map Num.chr).length ≤ m → ((Num.D 10 v).map Num.chr).length ≤ tl.length)
    (hb : info.base = 10) (hw : info.width = 0) (hf : info.widthFlag = false) (hu : info.upper = false) (hlo : info.lower = false)
    (hp : info.precision = -1) :
    printU64 (pre ++ tl) pre.length m info v = .ok (out pre tl m ((Num.D 10 v).map Num.chr)) := by
  unfold printU64
  have := Num.D_len (b := 10) (by omega) 31 v (by omega)
  rw [hb, Num.u64ToStr_eq (by omega) (by omega) v _ (by simp; omega)]
  simp only [Res.ok_bind]
  exact printString_cstr (Num.text_no_nul (by omega) (by omega) _) hl hw hf hu hlo hp

/-- The number of bytes left after a conversion of `n` bytes. -/
def left (m n : Nat) : Nat := if n ≥ m then min m 1 else m - n

/-- The end of a turn. -/
def endTurn (pos rem : Nat) (r : Bytes × Bytes × Nat × List Arg) : Res State :=
  .ok { fmt := r.1, buf := r.2.1, pos := pos + r.2.2.1, args := r.2.2.2, remaining := left rem r.2.2.1 }

theorem flag_none {c : UInt8} {cs : Bytes} (info : Info) (h : ¬ (c = 45 ∨ c = 43 ∨ c = 35 ∨ c = 32 ∨ c = 48)) :
    flagLoop (c :: cs) info = .ok (c :: cs, info) := by
  simp only [not_or] at h
  simp [flagLoop, h]

/-- A conversion without flags, width, precision and size. -/
theorem afterLit_plain (lt : Bool) {c : UInt8} {cs buf : Bytes} {pos rem : Nat} {as : List Arg}
    (h : ¬ (c = 45 ∨ c = 43 ∨ c = 35 ∨ c = 32 ∨ c = 48)) (h1 : charIsDigit c = false) (h2 : ¬ (c = 42 ∨ c = 46))
    (h3 : ¬ (c = 104 ∨ c = 108 ∨ c = 122 ∨ c = 116)) :
    afterLit lt (37 :: c :: cs) buf pos rem as = (convPart (c :: cs) buf pos rem {} as).bind (endTurn pos rem) := by
  simp only [not_or] at h2 h3
  have h45 : c ≠ 45 := fun e => h (.inl e)
  unfold afterLit
  simp only [if_true, flag_none {} h, Res.ok_bind, widthPart, if_neg h2.1, scan_none lt c cs h1 h45]
  simp [precisionPart, h2, sizePart, h3]
  rfl

theorem conv_str (lt : Bool) {pre tl s t rest : Bytes} {r : UInt8} {m : Nat} {as : List Arg} (h : (0 : UInt8) ∉ s) (hB : ¬ r = 66)
    (hl : s.length ≤ m → s.length ≤ tl.length) :
    afterLit lt (37 :: 83 :: r :: rest) (pre ++ tl) pre.length m (.str (some (s ++ t)) s.length :: as) =
      endTurn pre.length m (r :: rest, (out pre tl m s).1, (out pre tl m s).2, as) := by
  rw [afterLit_plain lt (by decide) (by decide) (by decide) (by decide)]
  have : convPart (83 :: r :: rest) (pre ++ tl) pre.length m {} (.str (some (s ++ t)) s.length :: as) =
      (printString (pre ++ tl) pre.length m { precision := s.length } (some (s ++ t))).bind fun (buf, len) =>
        .ok (r :: rest, buf, len, as) := by simp [convPart, hB]
  rw [this, printString_prec h hl rfl rfl rfl rfl rfl]
  rfl

theorem conv_null (lt : Bool) {pre tl rest : Bytes} {r : UInt8} {m : Nat} {as : List Arg} (hB : ¬ r = 66)
    (hl : 6 ≤ m → 6 ≤ tl.length) :
    afterLit lt (37 :: 83 :: r :: rest) (pre ++ tl) pre.length m (.str none 0 :: as) =
      endTurn pre.length m (r :: rest, (out pre tl m b!"(null)").1, (out pre tl m b!"(null)").2, as) := by
  rw [afterLit_plain lt (by decide) (by decide) (by decide) (by decide)]
  have : convPart (83 :: r :: rest) (pre ++ tl) pre.length m {} (.str none 0 :: as) =
      (printString (pre ++ tl) pre.length m { precision := (0 : Nat) } none).bind fun (buf, len) =>
        .ok (r :: rest, buf, len, as) := by simp [convPart, hB]
  rw [this, printString_null hl rfl rfl rfl rfl rfl]
  rfl

theorem conv_sb (lt : Bool) {pre tl s t rest : Bytes} {m : Nat} {as : List Arg} (h : (0 : UInt8) ∉ s)
    (hl : s.length ≤ m → s.length ≤ tl.length) :
    afterLit lt (37 :: 83 :: 66 :: rest) (pre ++ tl) pre.length m (.sb (s ++ t) s.length :: as) =
      endTurn pre.length m (rest, (out pre tl m s).1, (out pre tl m s).2, as) := by
  rw [afterLit_plain lt (by decide) (by decide) (by decide) (by decide)]
  have : convPart (83 :: 66 :: rest) (pre ++ tl) pre.length m {} (.sb (s ++ t) s.length :: as) =
      (printString (pre ++ tl) pre.length m { precision := s.length } (some (s ++ t))).bind fun (buf, len) =>
        .ok (rest, buf, len, as) := by simp [convPart]
  rw [this, printString_prec h hl rfl rfl rfl rfl rfl]
  rfl

theorem conv_cstr (lt : Bool) {pre tl s t rest : Bytes} {m : Nat} {as : List Arg} (h : (0 : UInt8) ∉ s)
    (hl : s.length ≤ m → s.length ≤ tl.length) :
    afterLit lt (37 :: 115 :: rest) (pre ++ tl) pre.length m (.cstr (some (s ++ 0 :: t)) :: as) =
      endTurn pre.length m (rest, (out pre tl m s).1, (out pre tl m s).2, as) := by
  rw [afterLit_plain lt (by decide) (by decide) (by decide) (by decide)]
  have : convPart (115 :: rest) (pre ++ tl) pre.length m {} (.cstr (some (s ++ 0 :: t)) :: as) =
      (printString (pre ++ tl) pre.length m {} (some (s ++ 0 :: t))).bind fun (buf, len) =>
        .ok (rest, buf, len, as) := by simp [convPart]
  rw [this, printString_cstr h hl rfl rfl rfl rfl rfl]
  rfl

theorem width_none (lt : Bool) {c : UInt8} {cs : Bytes} {as : List Arg} (h1 : charIsDigit c = false) (h2 : c ≠ 42) (h3 : c ≠ 45) :
    widthPart lt (c :: cs) {} as = .ok (c :: cs, {}, as) := by
  unfold widthPart
  simp only [if_neg h2, scan_none lt c cs h1 h3, Res.ok_bind]
  have h0 : (0 : Int).bmod (2 ^ 32) = 0 := by decide
  rw [h0]
  rfl

theorem precision_star (lt : Bool) {cs : Bytes} {n : Int} {as : List Arg} {info : Info} (h1 : -(2 ^ 31) ≤ n) (h2 : n < 2 ^ 31) :
    precisionPart lt (46 :: 42 :: cs) info (.int n :: as) = .ok (cs, { info with precision := n, zero := false }, as) := by
  unfold precisionPart
  simp only [ne_eq, not_true, if_false, if_true, takeInt, Res.ok_bind, bmod_int h1 h2]

theorem len31 (n : Nat) : -(2 ^ 31) ≤ (n : Int) := by omega
theorem len31' {n : Nat} (h : n < 2 ^ 31) : (n : Int) < 2 ^ 31 := by omega

/-- `afterLit` in the shape of its parts. -/
theorem afterLit_parts (lt : Bool) {cs f1 f2 f3 buf : Bytes} {i1 i2 i3 : Info} {pos rem : Nat} {as a1 a2 : List Arg} {i0 : Info} {f0 : Bytes}
    (h0 : flagLoop cs {} = .ok (f0, i0)) (h1 : widthPart lt f0 i0 as = .ok (f1, i1, a1))
    (h2 : precisionPart lt f1 i1 a1 = .ok (f2, i2, a2)) (h3 : sizePart f2 i2 = .ok (f3, i3)) :
    afterLit lt (37 :: cs) buf pos rem as = (convPart f3 buf pos rem i3 a2).bind (endTurn pos rem) := by
  unfold afterLit
  simp only [if_true, h0, h1, h2, h3, Res.ok_bind]
  rfl

theorem conv_len (lt : Bool) {pre tl s t rest : Bytes} {m : Nat} {as : List Arg} (h : (0 : UInt8) ∉ s) (hs : s.length < 2 ^ 31)
    (hl : s.length ≤ m → s.length ≤ tl.length) :
    afterLit lt (37 :: 46 :: 42 :: 115 :: rest) (pre ++ tl) pre.length m (.int s.length :: .cstr (some (s ++ t)) :: as) =
      endTurn pre.length m (rest, (out pre tl m s).1, (out pre tl m s).2, as) := by
  have e : ∀ info : Info, sizePart (115 :: rest) info = .ok (115 :: rest, info) := by intro i; simp [sizePart]
  rw [afterLit_parts lt (flag_none {} (by decide)) (width_none lt (by decide) (by decide) (by decide))
    (precision_star lt (len31 _) (len31' hs)) (e _)]
  have : ∀ info : Info, convPart (115 :: rest) (pre ++ tl) pre.length m info (.cstr (some (s ++ t)) :: as) =
      (printString (pre ++ tl) pre.length m info (some (s ++ t))).bind fun (buf, len) =>
        .ok (rest, buf, len, as) := by intro info; simp [convPart]
  rw [this, printString_prec h hl rfl rfl rfl rfl rfl]
  rfl

theorem conv_width (lt : Bool) {pre tl s t rest : Bytes} {m : Nat} {as : List Arg} (h : (0 : UInt8) ∉ s) (hs : s.length < 2 ^ 31)
    (hne : s ≠ []) (hl : s.length ≤ m → s.length ≤ tl.length) :
    afterLit lt (37 :: 42 :: 115 :: rest) (pre ++ tl) pre.length m (.int s.length :: .cstr (some (s ++ 0 :: t)) :: as) =
      endTurn pre.length m (rest, (out pre tl m s).1, (out pre tl m s).2, as) := by
  unfold afterLit
  simp only [if_true, flag_none (c := 42) {} (by decide), Res.ok_bind, widthPart, takeInt,
    bmod_int (show -(2 ^ 31) ≤ (s.length : Int) by omega) (by omega), if_neg (show ¬ (s.length : Int) < 0 by omega)]
  have e : ∀ (info : Info) (as : List Arg), precisionPart lt (115 :: rest) info as = .ok (115 :: rest, info, as) := by
    intro i as; simp [precisionPart]
  simp only [e, Res.ok_bind]
  have e : ∀ info : Info, sizePart (115 :: rest) info = .ok (115 :: rest, info) := by intro i; simp [sizePart]
  simp only [e, Res.ok_bind]
  have : ∀ info : Info, convPart (115 :: rest) (pre ++ tl) pre.length m info (.cstr (some (s ++ 0 :: t)) :: as) =
      (printString (pre ++ tl) pre.length m info (some (s ++ 0 :: t))).bind fun (buf, len) =>
        .ok (rest, buf, len, as) := by intro info; simp [convPart]
  rw [this, printString_width h hl hne rfl rfl rfl rfl rfl]
  rfl

theorem conv_int (lt : Bool) {pre tl rest : Bytes} {v : Int} {m : Nat} {as : List Arg} (h1 : -(2 ^ 31) ≤ v) (h2 : v < 2 ^ 31)
    (hl : (Num.signedText 10 v).length ≤ m → (Num.signedText 10 v).length ≤ tl.length) :
    afterLit lt (37 :: 100 :: rest) (pre ++ tl) pre.length m (.int v :: as) =
      endTurn pre.length m (rest, (out pre tl m (Num.signedText 10 v)).1, (out pre tl m (Num.signedText 10 v)).2, as) := by
  rw [afterLit_plain lt (by decide) (by decide) (by decide) (by decide)]
  have : convPart (100 :: rest) (pre ++ tl) pre.length m {} (.int v :: as) =
      (printI64 (pre ++ tl) pre.length m { base := 10 } (Int.bmod v (2 ^ 32))).bind fun (buf, len) =>
        .ok (rest, buf, len, as) := by
    simp [convPart, intConv, signedValue]
    cases printI64 (pre ++ tl) pre.length m { base := 10 } (v.bmod 4294967296) <;> rfl
  rw [this, bmod_int h1 h2, printI64_spec (by omega) (by omega) hl rfl rfl rfl rfl rfl rfl]
  rfl

theorem conv_uint (lt : Bool) {pre tl rest : Bytes} {v : Nat} {m : Nat} {as : List Arg} (h2 : v < 2 ^ 32)
    (hl : ((Num.D 10 v).map Num.chr).length ≤ m → ((Num.D 10 v).map Num.chr).length ≤ tl.length) :
    afterLit lt (37 :: 117 :: rest) (pre ++ tl) pre.length m (.int v :: as) =
      endTurn pre.length m (rest, (out pre tl m ((Num.D 10 v).map Num.chr)).1, (out pre tl m ((Num.D 10 v).map Num.chr)).2, as) := by
  rw [afterLit_plain lt (by decide) (by decide) (by decide) (by decide)]
  have hv : ((v : Int) % 2 ^ 32).toNat = v := by omega
  have : convPart (117 :: rest) (pre ++ tl) pre.length m {} (.int v :: as) =
      (printU64 (pre ++ tl) pre.length m { base := 10, unsigned := true } ((v : Int) % 2 ^ 32).toNat).bind fun (buf, len) =>
        .ok (rest, buf, len, as) := by
    simp [convPart, intConv, unsignedValue]
    cases printU64 (pre ++ tl) pre.length m { base := 10, unsigned := true } ((v : Int) % 4294967296).toNat <;> rfl
  rw [this, hv, printU64_spec h2 hl rfl rfl rfl rfl rfl rfl]
  rfl

theorem conv_llong (lt : Bool) {pre tl rest : Bytes} {v : Int} {m : Nat} {as : List Arg} (h1 : -(2 ^ 63) < v) (h2 : v < 2 ^ 63)
    (hl : (Num.signedText 10 v).length ≤ m → (Num.signedText 10 v).length ≤ tl.length) :
    afterLit lt (37 :: 108 :: 108 :: 100 :: rest) (pre ++ tl) pre.length m (.int v :: as) =
      endTurn pre.length m (rest, (out pre tl m (Num.signedText 10 v)).1, (out pre tl m (Num.signedText 10 v)).2, as) := by
  unfold afterLit
  simp only [if_true, flag_none (c := 108) {} (by decide), Res.ok_bind, widthPart, if_neg (show ¬ (108 : UInt8) = 42 by decide),
    scan_none lt 108 _ (by decide) (by decide), List.drop_zero]
  have h0 : (0 : Int).bmod (2 ^ 32) = 0 := by decide
  simp only [h0]
  have e : ∀ (info : Info) (as : List Arg), precisionPart lt (108 :: 108 :: 100 :: rest) info as = .ok (108 :: 108 :: 100 :: rest, info, as) := by
    intro i as; simp [precisionPart]
  simp only [e, Res.ok_bind]
  have e : ∀ info : Info, sizePart (108 :: 108 :: 100 :: rest) info = .ok (100 :: rest, { info with size := .llong }) := by
    intro i; simp [sizePart]
  simp only [e, Res.ok_bind]
  have : ∀ info : Info, info.unsigned = false → info.size = .llong → convPart (100 :: rest) (pre ++ tl) pre.length m info (.int v :: as) =
      (printI64 (pre ++ tl) pre.length m { info with base := 10 } (Int.bmod v (2 ^ 64))).bind fun (buf, len) =>
        .ok (rest, buf, len, as) := by
    intro info hu hs
    simp [convPart, intConv, signedValue, hu, hs]
    generalize printI64 _ _ _ _ _ = x
    cases x <;> rfl
  rw [this _ rfl rfl, bmod_llong (by omega) h2, printI64_spec h1 h2 hl rfl rfl rfl rfl rfl rfl]
  rfl

theorem conv_char (lt : Bool) {pre tl rest : Bytes} {c : UInt8} {m : Nat} {as : List Arg} (hc : c ≠ 0)
    (hl : 1 ≤ m → 1 ≤ tl.length) :
    afterLit lt (37 :: 99 :: rest) (pre ++ tl) pre.length m (.int c.toNat :: as) =
      endTurn pre.length m (rest, (out pre tl m [c]).1, (out pre tl m [c]).2, as) := by
  rw [afterLit_plain lt (by decide) (by decide) (by decide) (by decide)]
  have hlt := c.toNat_lt
  have hb : Int.bmod (c.toNat : Int) (2 ^ 32) = c.toNat := bmod_int (by omega) (by omega)
  have hm : ((c.toNat : Int) % 256).toNat = c.toNat := by omega
  have : convPart (99 :: rest) (pre ++ tl) pre.length m {} (.int c.toNat :: as) =
      (printString (pre ++ tl) pre.length m {} (some ([c] ++ 0 :: []))).bind fun (buf, len) =>
        .ok (rest, buf, len, as) := by
    simp only [convPart, takeInt, hb, Res.ok_bind, hm, printChar]
    simp
  rw [this, printString_cstr (by simpa using hc.symm) (by simpa using hl) rfl rfl rfl rfl rfl]
  rfl

theorem conv_percent (lt : Bool) {pre tl rest : Bytes} {m : Nat} {as : List Arg} (hl : 1 ≤ m → 1 ≤ tl.length) :
    afterLit lt (37 :: 37 :: rest) (pre ++ tl) pre.length m as =
      endTurn pre.length m (rest, (out pre tl m [37]).1, (out pre tl m [37]).2, as) := by
  rw [afterLit_plain lt (by decide) (by decide) (by decide) (by decide)]
  have : convPart (37 :: rest) (pre ++ tl) pre.length m {} as =
      (printString (pre ++ tl) pre.length m {} (some ([37] ++ 0 :: []))).bind fun (buf, len) =>
        .ok (rest, buf, len, as) := by
    simp [convPart, printChar]
  rw [this, printString_cstr (by decide) (by simpa using hl) rfl rfl rfl rfl rfl]
  rfl

theorem conv_step (lt : Bool) (c : Conv) (pre tl rest : Bytes) (m : Nat) (as : List Arg) (hc : c.Ok)
    (hr : c.isS → rest.head? ≠ some 66) (hne : rest ≠ []) (hl : c.text.length ≤ m → c.text.length ≤ tl.length) :
    afterLit lt (c.code ++ rest) (pre ++ tl) pre.length m (c.args ++ as) =
      endTurn pre.length m (rest, (out pre tl m c.text).1, (out pre tl m c.text).2, as) := by
  obtain ⟨r, rest, rfl⟩ := List.exists_cons_of_ne_nil hne
  cases c with
  | str s t => exact conv_str lt hc (by simpa [Conv.isS] using hr) hl
  | nullStr => exact conv_null lt (by simpa [Conv.isS] using hr) hl
  | sb s t => exact conv_sb lt hc hl
  | cstr s t => exact conv_cstr lt hc hl
  | len s t => exact conv_len lt hc.1 hc.2 hl
  | width s t => exact conv_width lt hc.1 hc.2.1 hc.2.2 hl
  | int v => exact conv_int lt hc.1 hc.2 hl
  | uint v => exact conv_uint lt hc hl
  | llong v => exact conv_llong lt hc.1 hc.2 hl
  | char c => exact conv_char lt hc hl
  | percent => exact conv_percent lt hl

/-- What is written for a text when `m` bytes are announced as free: all of it, or nothing. -/
def kept (m : Nat) (t : Bytes) : Bytes := if t.length ≤ m then t else []

/-- What is written in all: literals always, and without being counted; the text of a conversion if it fits the bytes that are left,
of which at least one stays. -/
def placed : Nat → List (Bytes × Conv) → Bytes → Bytes
  | _, [], last => last
  | m, (l, c) :: r, last => l ++ (kept m c.text ++ placed (left m (kept m c.text).length) r last)

theorem out_eq (pre tl : Bytes) (m : Nat) (t : Bytes) :
    out pre tl m t = (pre ++ (kept m t ++ tl.drop (kept m t).length), (kept m t).length) := by
  unfold out kept
  split <;> simp

theorem fmtText_ne (items : List (Bytes × Conv)) (last : Bytes) : fmtText items last ≠ [] := by
  cases items with
  | nil => simp [fmtText]
  | cons a r => obtain ⟨l, c⟩ := a; cases c <;> simp [fmtText, Conv.code]

theorem code_head (c : Conv) (rest : Bytes) : (c.code ++ rest).head? = some 37 := by
  cases c <;> rfl

theorem left_pos {m n : Nat} (h : m ≠ 0) : left m n ≠ 0 := by
  unfold left; split <;> omega

theorem afterLit_end (lt : Bool) (buf : Bytes) (pos rem : Nat) (as : List Arg) :
    afterLit lt [0] buf pos rem as = endTurn pos rem ([0], buf, 0, as) := by
  unfold afterLit
  simp only [if_neg (show ¬ (0 : UInt8) = 37 by decide), Res.ok_bind]
  rw [width_none lt (by decide) (by decide) (by decide)]
  simp [precisionPart, sizePart, convPart, endTurn, left]

theorem outer_spec (lt : Bool) : ∀ (items : List (Bytes × Conv)) (last pre tl : Bytes) (m fuel : Nat) (as : List Arg),
    OkFmt items last → m ≠ 0 → (placed m items last).length ≤ tl.length → items.length < fuel →
    ∃ rem, outer lt fuel { fmt := fmtText items last, buf := pre ++ tl, pos := pre.length, remaining := m, args := fmtArgs items ++ as } =
      .ok { fmt := [0], buf := pre ++ (placed m items last ++ tl.drop (placed m items last).length),
            pos := pre.length + (placed m items last).length, remaining := rem, args := as }
  | [], last, pre, tl, m, fuel, as, ho, hm, hl, hf => by
    obtain ⟨fuel, rfl⟩ : ∃ k, fuel = k + 1 := ⟨fuel - 1, by simp at hf; omega⟩
    cases last with
    | nil => exact ⟨m, by simp [outer, fmtText, fmtArgs, placed]⟩
    | cons a last =>
      have ha : ¬ a = 0 := fun e => ho.1 (by simp [e])
      have hlit := literalRun_spec hm (a :: last) pre tl [0] ho hl (.inl rfl)
      refine ⟨left m 0, ?_⟩
      simp only [fmtText, List.cons_append] at hlit ⊢
      simp only [outer, if_neg ha, turn_eq, hlit, Res.ok_bind, afterLit_end, endTurn]
      have h1 : ∀ (fuel : Nat) (s : State), s.fmt = [0] → outer lt fuel s = .ok s := by
        intro fuel s hs; unfold outer; rw [hs]; rfl
      rw [h1 _ _ rfl]
      simp [fmtArgs, placed]
  | (l, c) :: r, last, pre, tl, m, fuel, as, ho, hm, hl, hf => by
    obtain ⟨fuel, rfl⟩ : ∃ k, fuel = k + 1 := ⟨fuel - 1, by simp at hf; omega⟩
    obtain ⟨hlit, hc, hB, ho⟩ := ho
    simp only [placed, List.length_append] at hl
    have h1 := literalRun_spec hm l pre tl (c.code ++ fmtText r last) hlit (by omega) (.inr (code_head _ _))
    have h2 := conv_step lt c (pre ++ l) (tl.drop l.length) (fmtText r last) m (fmtArgs r ++ as) hc hB (fmtText_ne _ _)
      (by intro h; simp only [kept, if_pos h] at hl; simp; omega)
    obtain ⟨rem, h3⟩ := outer_spec lt r last (pre ++ (l ++ kept m c.text)) (tl.drop (l.length + (kept m c.text).length))
      (left m (kept m c.text).length) fuel as ho (left_pos hm) (by simp; omega) (by simp at hf; omega)
    refine ⟨rem, ?_⟩
    obtain ⟨x, xs, hx⟩ := List.exists_cons_of_ne_nil (show l ++ (c.code ++ fmtText r last) ≠ [] by cases c <;> simp [Conv.code])
    have hx0 : ¬ x = 0 := by
      intro e
      cases l with
      | nil =>
        have := code_head c (fmtText r last)
        simp only [List.nil_append] at hx
        rw [hx] at this
        simp [e] at this
      | cons y l =>
        simp only [List.cons_append, List.cons.injEq] at hx
        exact hlit.1 (by simp [hx.1, e])
    have harg : fmtArgs ((l, c) :: r) ++ as = c.args ++ (fmtArgs r ++ as) := by simp [fmtArgs]
    simp only [fmtText, harg]
    conv => lhs; unfold outer
    simp only [hx, if_neg hx0, turn_eq]
    rw [← hx]
    simp only [h1, Res.ok_bind]
    rw [← List.append_assoc]
    simp only [List.length_append] at h2
    rw [h2]
    simp only [endTurn, Res.ok_bind, out_eq]
    simp only [List.append_assoc, List.length_append, List.drop_drop] at h3 ⊢
    simp only [Nat.add_assoc] at h3 ⊢
    rw [h3]
    simp [placed, Nat.add_assoc]

theorem items_lt (items : List (Bytes × Conv)) (last : Bytes) : items.length < (fmtText items last).length := by
  induction items with
  | nil => simp [fmtText]
  | cons a r ih =>
    obtain ⟨l, c⟩ := a
    have : 1 ≤ c.code.length := by cases c <;> simp [Conv.code]
    simp [fmtText]; omega

/-- C36: what a format writes, for every well-formed format, every arguments, every announced size and every buffer that has room
for it. The text is followed by a NUL and nothing else of the buffer changes. The return value is the number of characters with the
NUL, or -1 if that is not less than the announced size. -/
theorem C36_exact_partial (lt : Bool) (items : List (Bytes × Conv)) (last buf : Bytes) (max : Nat) (ho : OkFmt items last) (hm : max ≠ 0)
    (hl : (placed max items last).length < buf.length) :
    cStrFmt lt buf max (fmtText items last) (fmtArgs items) =
      .ok (placed max items last ++ 0 :: buf.drop ((placed max items last).length + 1),
        if max ≤ (placed max items last).length + 1 then -1 else (placed max items last).length + 1) := by
  obtain ⟨rem, h⟩ := outer_spec lt items last [] buf max (fmtText items last).length [] ho hm (by omega) (items_lt _ _)
  simp only [List.nil_append, List.append_nil, List.length_nil, Nat.zero_add] at h
  unfold cStrFmt
  rw [h]
  simp only [Res.ok_bind]
  rw [List.drop_eq_getElem_cons hl, Num.put_split _ _ _ _ _ rfl]
  simp only [Res.ok_bind]
  split <;> rename_i h <;> simp [h]

theorem placed_all : ∀ (items : List (Bytes × Conv)) (last : Bytes) (m : Nat), (rendered items last).length ≤ m →
    placed m items last = rendered items last
  | [], _, _, _ => rfl
  | (l, c) :: r, last, m, h => by
    simp only [rendered, List.length_append] at h
    have hk : kept m c.text = c.text := by unfold kept; rw [if_pos (by omega)]
    simp only [placed, rendered, hk]
    rw [placed_all r last _ (by unfold left; split <;> omega)]

/-- C36: a text that fits is reproduced exactly: if the text of the format, its NUL and one byte more fit into the announced size,
and the buffer has room for them, then the buffer holds that text, NUL-terminated, and the number of characters is returned. -/
theorem C36_fits_partial (lt : Bool) (items : List (Bytes × Conv)) (last buf : Bytes) (max : Nat) (ho : OkFmt items last)
    (h : (rendered items last).length + 1 < max) (hb : max ≤ buf.length) :
    cStrFmt lt buf max (fmtText items last) (fmtArgs items) =
      .ok (rendered items last ++ 0 :: buf.drop ((rendered items last).length + 1), ((rendered items last).length : Int) + 1) := by
  have e := placed_all items last max (by omega)
  rw [C36_exact_partial lt items last buf max ho (by omega) (by rw [e]; omega), e, if_neg (by omega)]

/-- `strbuilder_append_fmt` appends the text of the format, whenever it is shorter than 131070 bytes. -/
theorem C36_append_fmt_partial (lt : Bool) (sb : SB) (items : List (Bytes × Conv)) (last : Bytes) (ho : OkFmt items last)
    (h : (rendered items last).length + 2 < printfMax) :
    appendFmt lt sb (fmtText items last) (fmtArgs items) =
      sb.appendLen (some (rendered items last ++ 0 :: List.replicate (printfMax - ((rendered items last).length + 1)) 0))
        (rendered items last).length := by
  unfold appendFmt
  rw [C36_fits_partial lt items last _ _ ho (by omega) (by simp)]
  simp only [Res.ok_bind, List.drop_replicate]
  rw [if_neg (by omega)]
  congr 1
  omega

/-- Arguments the format does not ask for are ignored. -/
theorem C36_extra_args_partial (lt : Bool) (items : List (Bytes × Conv)) (last buf : Bytes) (max : Nat) (extra : List Arg) (ho : OkFmt items last)
    (hm : max ≠ 0) (hl : (placed max items last).length < buf.length) :
    cStrFmt lt buf max (fmtText items last) (fmtArgs items ++ extra) = cStrFmt lt buf max (fmtText items last) (fmtArgs items) := by
  rw [C36_exact_partial lt items last buf max ho hm hl]
  obtain ⟨rem, h⟩ := outer_spec lt items last [] buf max (fmtText items last).length extra ho hm (by omega) (items_lt _ _)
  simp only [List.nil_append, List.length_nil, Nat.zero_add] at h
  unfold cStrFmt
  rw [h]
  simp only [Res.ok_bind]
  rw [List.drop_eq_getElem_cons hl, Num.put_split _ _ _ _ _ rfl]
  simp only [Res.ok_bind]
  split <;> rename_i h <;> simp [h]

theorem afterLit_not_sb (lt : Bool) {rest buf : Bytes} {pos rem : Nat} {as : List Arg} (h : ∀ d n as', as ≠ .sb d n :: as') :
    afterLit lt (37 :: 83 :: 66 :: rest) buf pos rem as = .ub := by
  rw [afterLit_plain lt (by decide) (by decide) (by decide) (by decide)]
  have : convPart (83 :: 66 :: rest) buf pos rem {} as = .ub := by
    cases as with
    | nil => simp [convPart]
    | cons a as =>
      cases a with
      | sb d n => exact absurd rfl (h d n as)
      | _ => simp [convPart]
  rw [this]
  rfl

theorem outer_turn (lt : Bool) {fuel : Nat} {s : State} {c : UInt8} {cs : Bytes} (hs : s.fmt = c :: cs) (hc : ¬ c = 0) :
    outer lt (fuel + 1) s = (turn lt s).bind fun s => outer lt fuel s := by
  conv => lhs; unfold outer
  rw [hs]
  simp only [if_neg hc]

/-- A `%SB` whose argument is missing or not a builder reads what is not one. -/
theorem C36_wrong_argument (lt : Bool) (l last rest buf : Bytes) (c : Conv) (max : Nat) (bad : List Arg) (hl : OkLit l) (hlast : OkLit last)
    (hc : c.Ok) (hB : c.isS → last.head? ≠ some 66) (hm : max ≠ 0) (hb : l.length + c.text.length + last.length ≤ buf.length)
    (h : ∀ d n as', bad ≠ .sb d n :: as') :
    cStrFmt lt buf max (l ++ (c.code ++ (last ++ (37 :: 83 :: 66 :: rest)))) (c.args ++ bad) = .ub := by
  have hk : (kept max c.text).length ≤ c.text.length := by unfold kept; split <;> simp
  have h1 := literalRun_spec hm l [] buf (c.code ++ (last ++ (37 :: 83 :: 66 :: rest))) hl (by omega) (.inr (code_head _ _))
  have h2 := conv_step lt c l (buf.drop l.length) (last ++ (37 :: 83 :: 66 :: rest)) max bad hc
    (by intro hs; have := hB hs; cases last <;> simp_all) (by simp) (by intro _; simp; omega)
  have h3 := literalRun_spec (left_pos (n := (kept max c.text).length) hm) last (l ++ kept max c.text)
    ((buf.drop l.length).drop (kept max c.text).length) (37 :: 83 :: 66 :: rest) hlast (by simp; omega) (.inr rfl)
  obtain ⟨x, xs, hx⟩ := List.exists_cons_of_ne_nil (show l ++ (c.code ++ (last ++ (37 :: 83 :: 66 :: rest))) ≠ [] by cases c <;> simp [Conv.code])
  have hx0 : ¬ x = 0 := by
    intro e
    cases l with
    | nil =>
      have := code_head c (last ++ (37 :: 83 :: 66 :: rest))
      simp only [List.nil_append] at hx
      rw [hx] at this
      simp [e] at this
    | cons y l =>
      simp only [List.cons_append, List.cons.injEq] at hx
      exact hl.1 (by simp [hx.1, e])
  obtain ⟨y, ys, hy⟩ := List.exists_cons_of_ne_nil (show last ++ (37 :: 83 :: 66 :: rest) ≠ [] by simp)
  have hy0 : ¬ y = 0 := by
    intro e
    cases last with
    | nil => simp only [List.nil_append, List.cons.injEq] at hy; rw [← hy.1] at e; cases e
    | cons z l =>
      simp only [List.cons_append, List.cons.injEq] at hy
      exact hlast.1 (by simp [hy.1, e])
  unfold cStrFmt
  obtain ⟨fuel, hfuel⟩ : ∃ k, (l ++ (c.code ++ (last ++ (37 :: 83 :: 66 :: rest)))).length = k + 2 := ⟨_, by
    simp only [List.length_append, List.length_cons]
    rw [show l.length + (c.code.length + (last.length + (rest.length + 1 + 1 + 1))) = l.length + (c.code.length + (last.length + (rest.length + 1))) + 2 by omega]⟩
  rw [hfuel, outer_turn lt hx hx0, turn_eq]
  simp only [List.nil_append, List.length_nil, Nat.zero_add] at h1
  simp only [h1, Res.ok_bind, h2, endTurn, out_eq]
  rw [outer_turn lt hy hy0, turn_eq]
  simp only [List.append_assoc, List.length_append] at h3
  simp only [h3, Res.ok_bind, afterLit_not_sb lt h]
  rfl

/-- A `Str` whose text ends (with a NUL) before its length does is printed up to there. -/
theorem C36_short_str (lt : Bool) (l s t last buf : Bytes) (n : Nat) (items : List (Bytes × Conv)) (max : Nat) (hl : OkLit l)
    (hs : (0 : UInt8) ∉ s) (hn : s.length ≤ n) (ho : OkFmt items last) (hB : (fmtText items last).head? ≠ some 66)
    (h : l.length + n + (rendered items last).length + 1 < max) (hb : max ≤ buf.length) :
    ∃ tail, cStrFmt lt buf max (l ++ (b!"%S" ++ fmtText items last)) (.str (some (s ++ 0 :: t)) n :: fmtArgs items) =
      .ok (l ++ s ++ rendered items last ++ 0 :: tail, ((l ++ s ++ rendered items last).length : Int) + 1) := by
  have hm : max ≠ 0 := by omega
  have h1 := literalRun_spec hm l [] buf (b!"%S" ++ fmtText items last) hl (by omega) (.inr rfl)
  obtain ⟨y, ys, hy⟩ := List.exists_cons_of_ne_nil (fmtText_ne items last)
  have hy66 : ¬ y = 66 := by intro e; rw [hy] at hB; exact hB (by simp [e])
  let tl := buf.drop l.length
  have hcopy : copyAt (l ++ tl) l.length (some (s ++ 0 :: t)) n =
      .ok (l ++ (s ++ (List.replicate (n - s.length) 0 ++ tl.drop n)), s.length) := by
    unfold copyAt
    rw [if_pos (by simp)]
    simp only [List.drop_left, List.take_left]
    have := CStr.copyLoop_spec tl s t n hs (by simp [tl]; omega)
    simp only [CStr.copyNulpad, this]
    simp only [Res.ok_bind, Nat.min_eq_right hn, List.take_of_length_le hn, List.append_assoc]
  have h2 : afterLit lt (37 :: 83 :: y :: ys) (l ++ tl) l.length max (.str (some (s ++ 0 :: t)) n :: fmtArgs items) =
      endTurn l.length max (y :: ys, l ++ (s ++ (List.replicate (n - s.length) 0 ++ tl.drop n)), s.length, fmtArgs items) := by
    rw [afterLit_plain lt (by decide) (by decide) (by decide) (by decide)]
    have : convPart (83 :: y :: ys) (l ++ tl) l.length max {} (.str (some (s ++ 0 :: t)) n :: fmtArgs items) =
        (printString (l ++ tl) l.length max { precision := n } (some (s ++ 0 :: t))).bind fun (buf, len) =>
          .ok (y :: ys, buf, len, fmtArgs items) := by simp [convPart, hy66]
    rw [this]
    have hp : printString (l ++ tl) l.length max { precision := n } (some (s ++ 0 :: t)) =
        .ok (l ++ (s ++ (List.replicate (n - s.length) 0 ++ tl.drop n)), s.length) := by
      unfold printString
      rw [if_neg (by simp), if_pos (by simp)]
      simp only [Res.ok_bind, Int.toNat_natCast, Bool.false_eq_true, and_false, if_false, true_or, if_true]
      rw [if_neg (by omega), hcopy]
      simp only [Res.ok_bind]
      rw [if_neg (by omega)]
      simp [caseConv]
    rw [hp]
    rfl
  have hpl := placed_all items last (left max s.length) (by unfold left; split <;> omega)
  obtain ⟨fuel, hfuel⟩ : ∃ k, (l ++ (b!"%S" ++ fmtText items last)).length = k + 1 := ⟨_, by
    simp only [List.length_append, List.length_cons]
    rw [show l.length + ((b!"" : Bytes).length + 1 + 1 + (fmtText items last).length) = l.length + (1 + (fmtText items last).length) + 1 by
      simp; omega]⟩
  have hfl : items.length < fuel := by
    have := items_lt items last
    simp at hfuel; omega
  obtain ⟨rem, h3⟩ := outer_spec lt items last (l ++ s) (List.replicate (n - s.length) 0 ++ tl.drop n) (left max s.length) fuel [] ho
    (left_pos hm) (by rw [hpl]; simp [tl]; omega) hfl
  rw [hpl] at h3
  simp only [List.append_nil, List.append_assoc, List.length_append] at h3
  obtain ⟨x, xs, hx⟩ := List.exists_cons_of_ne_nil (show l ++ (b!"%S" ++ fmtText items last) ≠ [] by simp)
  have hx0 : ¬ x = 0 := by
    intro e
    cases l with
    | nil => simp only [List.nil_append, List.cons_append, List.cons.injEq] at hx; rw [← hx.1] at e; cases e
    | cons y l =>
      simp only [List.cons_append, List.cons.injEq] at hx
      exact hl.1 (by simp [hx.1, e])
  unfold cStrFmt
  rw [hfuel, outer_turn lt hx hx0, turn_eq]
  simp only [List.nil_append, List.length_nil, Nat.zero_add] at h1
  have h1' : literalRun max (l ++ (b!"%S" ++ fmtText items last)) buf 0 = .ok (37 :: 83 :: y :: ys, l ++ tl, l.length) := by
    rw [h1, hy]; rfl
  simp only [h1', Res.ok_bind, h2, endTurn]
  rw [← hy]
  rw [h3]
  simp only [Res.ok_bind]
  have hlen : (rendered items last).length < (List.replicate (n - s.length) (0 : UInt8) ++ tl.drop n).length := by simp [tl]; omega
  rw [List.drop_eq_getElem_cons hlen]
  rw [show l ++ (s ++ (rendered items last ++ (List.replicate (n - s.length) (0 : UInt8) ++ tl.drop n)[(rendered items last).length] ::
      List.drop ((rendered items last).length + 1) (List.replicate (n - s.length) (0 : UInt8) ++ tl.drop n))) =
      (l ++ s ++ rendered items last) ++ (List.replicate (n - s.length) (0 : UInt8) ++ tl.drop n)[(rendered items last).length] ::
      List.drop ((rendered items last).length + 1) (List.replicate (n - s.length) (0 : UInt8) ++ tl.drop n) by simp]
  rw [Num.put_split _ _ _ _ _ (by simp [Nat.add_assoc])]
  simp only [Res.ok_bind]
  rw [if_neg (by omega)]
  refine ⟨(List.replicate (n - s.length) (0 : UInt8) ++ tl.drop n).drop ((rendered items last).length + 1), ?_⟩
  have hc : ((l.length + s.length + (rendered items last).length + 1 : Nat) : Int) = ((l ++ s ++ rendered items last).length : Int) + 1 := by
    simp only [List.length_append]; omega
  rw [hc]

/-! ### What does not hold -/

/-- Literal text is not counted: a format without any conversion writes past the end of the buffer, whatever size is announced, as
soon as the text does not fit the buffer. -/
theorem C36_literal_overflow (lt : Bool) (lit buf : Bytes) (max : Nat) (ho : OkLit lit) (hm : max ≠ 0) (h : buf.length < lit.length) :
    cStrFmt lt buf max (lit ++ [0]) [] = .ub := by
  have key : ∀ (l buf rest : Bytes) (i : Nat), OkLit l → i + l.length > buf.length → i ≤ buf.length →
      literalRun max (l ++ rest) buf i = .ub := by
    intro l
    induction l with
    | nil => intro buf rest i _ h1 h2; simp at h1; omega
    | cons a l ih =>
      intro buf rest i ho h1 h2
      obtain ⟨h0, h37⟩ := ho
      simp only [List.mem_cons, not_or] at h0 h37
      have hc : ¬ (a = 0 ∨ a = 37 ∨ max = 0) := by
        rintro (h | h | h)
        · exact h0.1 h.symm
        · exact h37.1 h.symm
        · exact hm h
      simp only [List.cons_append, literalRun, if_neg hc]
      unfold Num.put
      split
      · simp only [Res.ok_bind]
        exact ih _ _ _ ⟨h0.2, h37.2⟩ (by simp at h1 ⊢; omega) (by simp; omega)
      · rfl
  cases lit with
  | nil => simp at h
  | cons a lit =>
    have ha : ¬ a = 0 := fun e => ho.1 (by simp [e])
    unfold cStrFmt
    simp only [List.cons_append, List.length_cons, outer, if_neg ha, turn_eq]
    rw [show a :: (lit ++ [0]) = (a :: lit) ++ [0] from rfl, key _ _ _ _ ho (by simp at h ⊢; omega) (by omega)]
    rfl

/-- The announced size does not bound what is written: for every announced size there are a format and a larger buffer such that
bytes beyond the announced size are overwritten. -/
theorem C36_writes_past_max (lt : Bool) (max : Nat) (hm : max ≠ 0) (x : UInt8) :
    cStrFmt lt (List.replicate (max + 2) x) max (List.replicate (max + 1) 97 ++ [0]) [] =
      .ok (List.replicate (max + 1) 97 ++ [0], -1) := by
  have h := C36_exact_partial lt [] (List.replicate (max + 1) 97) (List.replicate (max + 2) x) max (by simp [OkFmt, OkLit, List.mem_replicate]) hm
    (by simp [placed])
  simp only [fmtText, fmtArgs, List.flatMap_nil, placed, List.length_replicate, List.drop_replicate] at h
  rw [h, if_pos (by omega)]
  simp

/-- A text that does not fit is not cut: it is left out, and the call reports success with one character (the NUL). -/
theorem C36_dropped (lt : Bool) (s t buf : Bytes) (max : Nat) (hs : (0 : UInt8) ∉ s) (hm : 1 < max) (h : max < s.length) (hb : buf ≠ []) :
    cStrFmt lt buf max b!"%SB\x00" [.sb (s ++ t) s.length] = .ok (0 :: buf.drop 1, 1) := by
  have hp : placed max [([], Conv.sb s t)] [] = [] := by
    have : kept max s = [] := by unfold kept; rw [if_neg (by omega)]
    simp [placed, Conv.text, this]
  have := C36_exact_partial lt [([], Conv.sb s t)] [] buf max
    (by refine ⟨⟨by simp, by simp⟩, hs, by simp [Conv.isS], by simp [OkFmt, OkLit]⟩) (by omega)
    (by rw [hp]; exact List.length_pos_iff.2 hb)
  rw [hp, if_neg (by simp; omega)] at this
  exact this

theorem repeatLoop_ub (d : UInt8) : ∀ (k : Nat) (buf : Bytes) (i : Nat), i + k > buf.length → i ≤ buf.length → repeatLoop d k buf i = .ub
  | 0, buf, i, h1, h2 => by omega
  | k + 1, buf, i, h1, h2 => by
    unfold repeatLoop Num.put
    split
    · simp only [Res.ok_bind]
      exact repeatLoop_ub d k _ _ (by simp; omega) (by simp; omega)
    · rfl

theorem width_star (lt : Bool) {cs : Bytes} {n : Int} {as : List Arg} (h0 : 0 ≤ n) (h1 : -(2 ^ 31) ≤ n) (h2 : n < 2 ^ 31) :
    widthPart lt (42 :: cs) {} (.int n :: as) = .ok (cs, { width := n, widthFlag := true }, as) := by
  have : ¬ n < 0 := by omega
  simp only [widthPart, if_true, takeInt, bmod_int h1 h2, Res.ok_bind, if_neg this]

theorem conv_r {buf cs : Bytes} {info : Info} {n max : Nat} {x : Int} (hw : info.width = n) (h : buf.length < n) :
    convPart (114 :: cs) buf 0 max info [.int x] = .ub := by
  have h0 : 0 < n := by omega
  have : ∀ y : UInt8, printRepeated buf 0 info y = .ub := by
    intro y
    simp [printRepeated, hw, h0, repeatLoop_ub y n buf 0 (by omega) (by omega)]
  obtain ⟨y, hy⟩ : ∃ y, takeInt [.int x] = .ok (y, []) := ⟨_, rfl⟩
  simp [convPart, hy, this]

theorem rep_prec (lt : Bool) (info : Info) (as : List Arg) : precisionPart lt [114, 0] info as = .ok ([114, 0], info, as) := by
  simp [precisionPart]
theorem rep_size (info : Info) : sizePart [114, 0] info = .ok ([114, 0], info) := by simp [sizePart]
theorem rep_width (lt : Bool) (n : Nat) (x : Int) (hn : n < 2 ^ 31) :
    widthPart lt [42, 114, 0] {} [.int n, .int x] = .ok ([114, 0], { width := n, widthFlag := true }, [.int x]) :=
  width_star lt (Int.natCast_nonneg n) (len31 n) (len31' hn)
theorem rep_flag : flagLoop [42, 114, 0] {} = .ok ([42, 114, 0], {}) := flag_none _ (by decide)
theorem rep_after (lt : Bool) (buf : Bytes) (max n : Nat) (x : Int) (h : buf.length < n) (hn : n < 2 ^ 31) :
    afterLit lt [37, 42, 114, 0] buf 0 max [.int n, .int x] = .ub := by
  rw [afterLit_parts lt rep_flag (rep_width lt n x hn) (rep_prec _ _ _) (rep_size _), conv_r rfl h]
  rfl
theorem rep_lit (buf : Bytes) (max : Nat) : literalRun max [37, 42, 114, 0] buf 0 = .ok ([37, 42, 114, 0], buf, 0) := by simp [literalRun]

theorem turn_of_lit (lt : Bool) {fmt buf f b : Bytes} {pos rem p : Nat} {as : List Arg} (h : literalRun rem fmt buf pos = .ok (f, b, p)) :
    turn lt { fmt := fmt, buf := buf, pos := pos, remaining := rem, args := as } = afterLit lt f b p rem as := by
  rw [turn_eq, h]; rfl

/-- The first turn decides. -/
theorem first_turn (lt : Bool) {buf : Bytes} {max : Nat} {c : UInt8} {cs : Bytes} {as : List Arg} (hc : ¬ c = 0)
    (h : turn lt { fmt := c :: cs, buf := buf, pos := 0, remaining := max, args := as } = .ub) : cStrFmt lt buf max (c :: cs) as = .ub := by
  unfold cStrFmt
  simp only [List.length_cons, outer, if_neg hc, h]
  rfl

/-- `%r` repeats a character as often as asked, whatever the size of the buffer. -/
theorem C36_repeat_overflow (lt : Bool) (buf : Bytes) (max n : Nat) (x : Int) (h : buf.length < n) (hn : n < 2 ^ 31) :
    cStrFmt lt buf max b!"%*r\x00" [.int n, .int x] = .ub := by
  exact first_turn lt (c := 37) (by decide) ((turn_of_lit lt (rep_lit _ _)).trans (rep_after lt buf max n x h hn))

theorem mapStr_ub (f : UInt8 → UInt8) : ∀ s : Bytes, (0 : UInt8) ∉ s → CStr.mapStr f s = .ub
  | [], _ => rfl
  | b :: s, h => by
    simp only [List.mem_cons, not_or] at h
    have hb : ¬ b = 0 := fun e => h.1 e.symm
    simp [CStr.mapStr, hb, mapStr_ub f s h.2]

/-- `%x` converts the case of everything up to the next NUL of the buffer: with a buffer that holds none, it runs off its end,
whatever the number. -/
theorem C36_hex_unterminated (lt : Bool) (buf : Bytes) (max v : Nat) (hv : v < 2 ^ 32) (hb : (0 : UInt8) ∉ buf) (h8 : 32 ≤ max)
    (hl : 32 ≤ buf.length) : cStrFmt lt buf max b!"%x\x00" [.int v] = .ub := by
  have hd := Num.D_len (b := 16) (by omega) 31 v (by omega)
  have hnn := Num.text_no_nul (b := 16) (by omega) (by omega) v
  have hvv : ((v : Int) % 2 ^ 32).toNat = v := by omega
  have h1 : ∀ info : Info, info.precision = -1 → info.width = 0 → info.widthFlag = false → info.upper = false → info.lower = true →
      info.base = 16 → printU64 buf 0 max info v = .ub := by
    intro info hp hw hf hu hlo hbs
    unfold printU64
    rw [hbs, Num.u64ToStr_eq (by omega) (by omega) v _ (by simp; omega)]
    simp only [Res.ok_bind]
    unfold printString
    rw [if_neg (by simp), if_neg (by omega)]
    simp only [CStr.len_spec _ _ hnn, Res.ok_bind, hw, hf, Bool.false_eq_true, and_false, if_false, true_or, if_true]
    rw [if_neg (by simp; omega)]
    have := copyAt_exact (pre := []) (tl := buf) (t := 0 :: List.drop ((Num.D 16 v).length + 1) (List.replicate 130 0)) hnn (by simp; omega)
    simp only [List.nil_append, List.length_nil] at this
    rw [this]
    simp only [Res.ok_bind]
    rw [if_neg (by omega)]
    have hc : caseConv info (List.map Num.chr (Num.D 16 v) ++ List.drop (List.map Num.chr (Num.D 16 v)).length buf) 0 = .ub := by
      simp only [caseConv, hu, hlo, Bool.false_eq_true, if_false, if_true, List.drop_zero, CStr.toLower]
      rw [mapStr_ub]
      · rfl
      · intro h
        rcases List.mem_append.1 h with h | h
        · exact hnn h
        · exact hb (List.mem_of_mem_drop h)
    simp only [Res.ok_bind]
    rw [hc]
    rfl
  have h2 : afterLit lt [37, 120, 0] buf 0 max [.int v] = .ub := by
    rw [afterLit_plain lt (by decide) (by decide) (by decide) (by decide)]
    have : convPart [120, 0] buf 0 max {} [.int v] =
        (printU64 buf 0 max { base := 16, unsigned := true, lower := true } ((v : Int) % 2 ^ 32).toNat).bind fun (buf, len) =>
          .ok (([0] : Bytes), buf, len, ([] : List Arg)) := by
      simp [convPart, intConv, unsignedValue]
      generalize printU64 _ _ _ _ _ = x
      cases x <;> rfl
    rw [this, hvv, h1 _ rfl rfl rfl rfl rfl rfl]
    rfl
  have h5 : literalRun max [37, 120, 0] buf 0 = .ok ([37, 120, 0], buf, 0) := by simp [literalRun]
  show cStrFmt lt buf max [37, 120, 0] [.int v] = .ub
  unfold cStrFmt
  simp only [List.length_cons, outer, turn_eq]
  rw [if_neg (by decide), h5]
  simp only [Res.ok_bind]
  rw [h2]
  rfl

/-! ### Cases -/

/-- A format of serialization: `"%S : %SB = %d%%"`. -/
def exItems : List (Bytes × Conv) :=
  [([], .str b!"name" b!"rest"), (b!" : ", .sb b!"type" [0, 7]), (b!" = ", .int (-12)), ([], .percent)]

example : fmtText exItems [10] = b!"%S : %SB = %d%%\n\x00" := by decide
example : OkFmt exItems [10] := by
  refine ⟨⟨by decide, by decide⟩, by simp [Conv.Ok], by simp [Conv.isS, fmtText], ⟨by decide, by decide⟩, by simp [Conv.Ok],
    by simp [Conv.isS], ⟨by decide, by decide⟩, by simp [Conv.Ok], by simp [Conv.isS], ⟨by decide, by decide⟩, trivial, by simp [Conv.isS], ?_⟩
  exact ⟨by decide, by decide⟩
example : rendered exItems [10] = b!"name : type = -12%\n" := by decide +kernel
/-- The same on the model itself, in a buffer of 24 bytes. -/
example : cStrFmt true (List.replicate 24 7) 24 (fmtText exItems [10]) (fmtArgs exItems) =
    .ok (b!"name : type = -12%\n" ++ [0, 7, 7, 7, 7], 20) := by decide +kernel
example : cStrFmt true (List.replicate 8 65 ++ [0]) 9 b!"%x\x00" [.int 11] = .ok (b!"b\x00aaaaaa\x00", 2) := by decide +kernel

/-! ### Padding -/

theorem padLoop_spec (pad : UInt8) : ∀ (k m : Nat) (pre tl : Bytes), k ≤ m → k ≤ tl.length →
    padLoop pad k m (pre ++ tl) pre.length = .ok (pre ++ (List.replicate k pad ++ tl.drop k), k)
  | 0, m, pre, tl, _, _ => by simp [padLoop]
  | k + 1, 0, pre, tl, h, _ => by omega
  | k + 1, m + 1, pre, [], _, h => by simp at h
  | k + 1, m + 1, pre, x :: tl, h1, h2 => by
    have ih := padLoop_spec pad k m (pre ++ [pad]) tl (by omega) (by simpa using h2)
    simp only [List.append_assoc, List.cons_append, List.nil_append, List.length_append, List.length_cons, List.length_nil, Nat.zero_add] at ih
    rw [padLoop, Num.put_split _ _ _ _ _ rfl]
    simp only [Res.ok_bind, ih, List.replicate_succ, List.cons_append, List.drop_succ_cons]

/-- One conversion, with an ordinary format behind it. -/
theorem one_conv (lt : Bool) (l code text tl' last buf : Bytes) (as : List Arg) (items : List (Bytes × Conv)) (max : Nat) (hl : OkLit l)
    (hcode : code.head? = some 37) (hb : l.length < buf.length) (ho : OkFmt items last)
    (h : l.length + text.length + (rendered items last).length + 1 < max) (htl : (rendered items last).length < tl'.length)
    (h2 : afterLit lt (code ++ fmtText items last) (l ++ buf.drop l.length) l.length max (as ++ fmtArgs items) =
      endTurn l.length max (fmtText items last, l ++ (text ++ tl'), text.length, fmtArgs items)) :
    cStrFmt lt buf max (l ++ (code ++ fmtText items last)) (as ++ fmtArgs items) =
      .ok (l ++ text ++ rendered items last ++ 0 :: tl'.drop ((rendered items last).length + 1),
        ((l ++ text ++ rendered items last).length : Int) + 1) := by
  have hm : max ≠ 0 := by omega
  obtain ⟨code', rfl⟩ : ∃ c, code = 37 :: c := by cases code <;> simp_all
  have h1 := literalRun_spec hm l [] buf (37 :: code' ++ fmtText items last) hl (by omega) (.inr rfl)
  have hpl := placed_all items last (left max text.length) (by unfold left; split <;> omega)
  obtain ⟨fuel, hfuel⟩ : ∃ k, (l ++ (37 :: code' ++ fmtText items last)).length = k + 1 := ⟨l.length + (code'.length + (fmtText items last).length), by
    simp; omega⟩
  have hfl : items.length < fuel := by
    have := items_lt items last
    simp at hfuel; omega
  obtain ⟨rem, h3⟩ := outer_spec lt items last (l ++ text) tl' (left max text.length) fuel [] ho
    (left_pos hm) (by rw [hpl]; omega) hfl
  rw [hpl] at h3
  simp only [List.append_nil, List.append_assoc, List.length_append] at h3
  obtain ⟨x, xs, hx⟩ := List.exists_cons_of_ne_nil (show l ++ (37 :: code' ++ fmtText items last) ≠ [] by simp)
  have hx0 : ¬ x = 0 := by
    intro e
    cases l with
    | nil => simp only [List.nil_append, List.cons_append, List.cons.injEq] at hx; rw [← hx.1] at e; cases e
    | cons y l =>
      simp only [List.cons_append, List.cons.injEq] at hx
      exact hl.1 (by simp [hx.1, e])
  unfold cStrFmt
  rw [hfuel, outer_turn lt hx hx0, turn_eq]
  simp only [List.nil_append, List.length_nil, Nat.zero_add] at h1
  simp only [h1, Res.ok_bind, h2, endTurn]
  rw [h3]
  simp only [Res.ok_bind]
  have e1 : l ++ (text ++ (rendered items last ++ tl'.drop (rendered items last).length)) =
      (l ++ text ++ rendered items last) ++ tl'[(rendered items last).length] :: tl'.drop ((rendered items last).length + 1) := by
    rw [List.drop_eq_getElem_cons htl]; simp
  rw [e1, Num.put_split _ _ _ _ _ (by simp [Nat.add_assoc])]
  simp only [Res.ok_bind]
  rw [if_neg (by omega)]
  have hc : ((l.length + text.length + (rendered items last).length + 1 : Nat) : Int) = ((l ++ text ++ rendered items last).length : Int) + 1 := by
    simp only [List.length_append]; omega
  rw [hc]

/-- What `%*s` with the width `w` prints: the text, filled up with blanks to `|w|` bytes, on the left, or on the right if `w < 0`. -/
def padded (w : Int) (s : Bytes) : Bytes :=
  if w < 0 then s ++ List.replicate (w.natAbs - s.length) 32 else List.replicate (w.natAbs - s.length) 32 ++ s

theorem padded_len (w : Int) (s : Bytes) : (padded w s).length = s.length + (w.natAbs - s.length) := by
  unfold padded; split <;> simp; omega

theorem printString_padded {pre tl s t : Bytes} {m : Nat} {w : Int} (h : (0 : UInt8) ∉ s) (hw : w ≠ 0) (hm : (padded w s).length ≤ m)
    (hl : (padded w s).length ≤ tl.length) :
    printString (pre ++ tl) pre.length m { minus := decide (w < 0), width := w.natAbs, widthFlag := true } (some (s ++ 0 :: t)) =
      .ok (pre ++ (padded w s ++ tl.drop (padded w s).length), (padded w s).length) := by
  rw [padded_len] at hm hl
  have hk : ((w.natAbs : Int) - (s.length : Int)).toNat = w.natAbs - s.length := by omega
  have hw0 : ¬ ((w.natAbs : Int) = 0) := by omega
  unfold printString
  rw [if_neg (by simp), if_neg (by simp)]
  simp only [CStr.len_spec s t h, Res.ok_bind, hw0, false_and, if_false, hk, false_or, decide_eq_true_eq, Bool.false_eq_true]
  by_cases hn : w < 0
  · rw [if_pos hn, if_neg (by omega), copyAt_exact h (by omega)]
    simp only [Res.ok_bind]
    have e1 := padLoop_spec 32 (w.natAbs - s.length) m (pre ++ s) (tl.drop s.length) (by omega) (by simp; omega)
    simp only [List.append_assoc, List.length_append] at e1
    rw [e1, padded_len]
    have hp : padded w s = s ++ List.replicate (w.natAbs - s.length) 32 := by unfold padded; rw [if_pos hn]
    rw [hp]
    split
    · simp [Res.ok_bind, caseConv]
    · rename_i hle
      have : w.natAbs - s.length = 0 := by omega
      simp [Res.ok_bind, caseConv, this]
  · rw [if_neg hn, if_pos (by omega), padLoop_spec 32 _ m pre tl (by omega) (by omega)]
    simp only [Res.ok_bind]
    rw [if_neg (by omega)]
    have e1 := copyAt_exact (pre := pre ++ List.replicate (w.natAbs - s.length) 32) (tl := tl.drop (w.natAbs - s.length)) (s := s) (t := 0 :: t) h
      (by simp; omega)
    simp only [List.append_assoc, List.length_append, List.length_replicate] at e1
    rw [e1, padded_len]
    have hp : padded w s = List.replicate (w.natAbs - s.length) 32 ++ s := by unfold padded; rw [if_neg hn]
    rw [hp]
    simp only [Res.ok_bind, caseConv, Bool.false_eq_true, if_false, List.append_assoc, List.drop_drop]
    have e2 : s.length + (w.natAbs - s.length) = w.natAbs - s.length + s.length := by omega
    rw [e2]

/-- `%*s` fills the text up to the width with blanks: on the left, or on the right for a negative width. -/
theorem C36_padded_partial (lt : Bool) (l s t last buf : Bytes) (w : Int) (items : List (Bytes × Conv)) (max : Nat) (hl : OkLit l)
    (hs : (0 : UInt8) ∉ s) (hw0 : w ≠ 0) (hw1 : -(2 ^ 31) < w) (hw2 : w < 2 ^ 31) (ho : OkFmt items last)
    (h : l.length + (padded w s).length + (rendered items last).length + 1 < max) (hb : max ≤ buf.length) :
    ∃ tail, cStrFmt lt buf max (l ++ (b!"%*s" ++ fmtText items last)) (.int w :: .cstr (some (s ++ 0 :: t)) :: fmtArgs items) =
      .ok (l ++ padded w s ++ rendered items last ++ 0 :: tail, ((l ++ padded w s ++ rendered items last).length : Int) + 1) := by
  have hp := printString_padded (pre := l) (tl := buf.drop l.length) (t := t) (m := max) hs hw0 (by omega) (by simp; omega)
  refine ⟨_, one_conv lt l b!"%*s" (padded w s) ((buf.drop l.length).drop (padded w s).length) last buf [.int w, .cstr (some (s ++ 0 :: t))] items max hl rfl (by omega) ho h ?_ ?_⟩
  · simp; omega
  · have hwd : widthPart lt (42 :: 115 :: fmtText items last) {} (.int w :: .cstr (some (s ++ 0 :: t)) :: fmtArgs items) =
        .ok (115 :: fmtText items last, { minus := decide (w < 0), width := w.natAbs, widthFlag := true }, .cstr (some (s ++ 0 :: t)) :: fmtArgs items) := by
      simp only [widthPart, if_true, takeInt, bmod_int (by omega : -(2 ^ 31) ≤ w) hw2, Res.ok_bind]
      by_cases hn : w < 0
      · rw [if_pos hn]
        have : -w = (w.natAbs : Int) := by omega
        simp [hn, this]
      · rw [if_neg hn]
        have : w = (w.natAbs : Int) := by omega
        simp [hn, ← this]
    have hpr : precisionPart lt (115 :: fmtText items last) { minus := decide (w < 0), width := w.natAbs, widthFlag := true } (.cstr (some (s ++ 0 :: t)) :: fmtArgs items) =
        .ok (115 :: fmtText items last, { minus := decide (w < 0), width := w.natAbs, widthFlag := true }, .cstr (some (s ++ 0 :: t)) :: fmtArgs items) := by
      simp [precisionPart]
    have hsz : sizePart (115 :: fmtText items last) { minus := decide (w < 0), width := w.natAbs, widthFlag := true } =
        .ok (115 :: fmtText items last, { minus := decide (w < 0), width := w.natAbs, widthFlag := true }) := by
      simp [sizePart]
    have := afterLit_parts lt (buf := l ++ buf.drop l.length) (pos := l.length) (rem := max) (flag_none (c := 42) (cs := 115 :: fmtText items last) {} (by decide)) hwd hpr hsz
    refine Eq.trans this ?_
    have hc : convPart (115 :: fmtText items last) (l ++ buf.drop l.length) l.length max { minus := decide (w < 0), width := w.natAbs, widthFlag := true }
        (.cstr (some (s ++ 0 :: t)) :: fmtArgs items) = .ok (fmtText items last, l ++ (padded w s ++ (buf.drop l.length).drop (padded w s).length), (padded w s).length, fmtArgs items) := by
      simp [convPart, hp]
    rw [hc]
    rfl

example : padded 5 b!"ab" = b!"   ab" ∧ padded (-5) b!"ab" = b!"ab   " ∧ padded 1 b!"ab" = b!"ab" := by decide

end Verif.Fmt
