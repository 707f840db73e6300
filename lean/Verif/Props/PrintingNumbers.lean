import Verif.Props.Printing
/-!
# C36: numbers with flags, widths and sizes

`IntConv` is a conversion of an integer as a user writes it: flags, width, length letters and the letter of the conversion. `text` is what the
library prints for it, `standard` what the C standard asks for.
-/
namespace Verif.Fmt

/-- The length letters of a conversion. -/
inductive Letters where
  | none | hh | h | l | ll | z | t
  deriving DecidableEq, Repr

def Letters.code : Letters → Bytes
  | .none => []
  | .hh => b!"hh"
  | .h => b!"h"
  | .l => b!"l"
  | .ll => b!"ll"
  | .z => b!"z"
  | .t => b!"t"

/-- The size of the type they stand for. -/
def Letters.bits : Letters → Nat
  | .none => 32
  | .hh => 8
  | .h => 16
  | _ => 64

inductive Kind where
  | d | i | u | o | x | X
  deriving DecidableEq, Repr

def Kind.code : Kind → UInt8
  | .d => 100
  | .i => 105
  | .u => 117
  | .o => 111
  | .x => 120
  | .X => 88

def Kind.base : Kind → Nat
  | .d | .i | .u => 10
  | .o => 8
  | .x | .X => 16

structure IntConv where
  flags : Bytes
  /-- 0: no width is written -/
  width : Nat
  letters : Letters
  kind : Kind
  deriving DecidableEq, Repr

/-- The conversion as it is written in the format. -/
def IntConv.code (n : IntConv) : Bytes :=
  37 :: (n.flags ++ ((if n.width = 0 then [] else (Num.D 10 n.width).map Num.chr) ++ (n.letters.code ++ [n.kind.code])))

/-- The library takes the argument for a signed one: `%d`, `%i` and `%o`, but not with the letter `z`. -/
def IntConv.signed (n : IntConv) : Bool :=
  n.letters ≠ .z && (n.kind = .d || n.kind = .i || n.kind = .o)

/-- The flags are flags, the width fits an `int`, and the value is one of the type, but not the least one of 64 bits. -/
def IntConv.Ok (n : IntConv) (v : Int) : Prop :=
  (∀ f ∈ n.flags, f = 45 ∨ f = 43 ∨ f = 35 ∨ f = 32 ∨ f = 48) ∧ n.width < 2 ^ 31 ∧
    if n.signed then -(2 ^ (n.letters.bits - 1)) ≤ v ∧ v < 2 ^ (n.letters.bits - 1) ∧ v ≠ -(2 ^ 63) else 0 ≤ v ∧ v < 2 ^ n.letters.bits

instance (n : IntConv) (v : Int) : Decidable (n.Ok v) := by unfold IntConv.Ok; infer_instance

/-- The digits of a number, without a sign. -/
def Kind.digits (k : Kind) (v : Nat) : Bytes :=
  (Num.D k.base v).map fun d => if k = .x then b!"0123456789abcdef".getD d 0 else b!"0123456789ABCDEF".getD d 0

/-- What the library prints: the number, filled up to the width with zeros if `0` is among the flags and with blanks otherwise, on the right if
`-` is among the flags and on the left otherwise. Other flags do nothing. `0` without a width prints nothing at all. -/
def IntConv.text (n : IntConv) (v : Int) : Bytes :=
  let s := (if v < 0 then b!"-" else []) ++ n.kind.digits v.natAbs
  let fill := List.replicate (n.width - s.length) (if 48 ∈ n.flags then (48 : UInt8) else 32)
  if n.width = 0 ∧ 48 ∈ n.flags then [] else if 45 ∈ n.flags then s ++ fill else fill ++ s

/-- What the C standard (7.21.6.1) asks for. -/
def IntConv.standard (n : IntConv) (v : Int) : Bytes :=
  let isD := n.kind = .d ∨ n.kind = .i
  let sign := if v < 0 then b!"-" else if isD ∧ 43 ∈ n.flags then b!"+" else if isD ∧ 32 ∈ n.flags then b!" " else []
  let mark := if 35 ∈ n.flags ∧ v ≠ 0 then (match n.kind with | .o => b!"0" | .x => b!"0x" | .X => b!"0X" | _ => []) else []
  let s := n.kind.digits v.natAbs
  let k := n.width - (sign ++ mark ++ s).length
  if 45 ∈ n.flags then sign ++ mark ++ s ++ List.replicate k 32
  else if 48 ∈ n.flags then sign ++ mark ++ List.replicate k 48 ++ s
  else List.replicate k 32 ++ (sign ++ mark ++ s)

/-- A part of a format with its argument. -/
inductive Piece where
  | plain (c : Conv)
  | number (n : IntConv) (v : Int)
  deriving DecidableEq, Repr

def Piece.code : Piece → Bytes
  | .plain c => c.code
  | .number n _ => n.code

def Piece.args : Piece → List Arg
  | .plain c => c.args
  | .number _ v => [.int v]

def Piece.text : Piece → Bytes
  | .plain c => c.text
  | .number n v => n.text v

def Piece.Ok : Piece → Prop
  | .plain c => c.Ok
  | .number n v => n.Ok v

def Piece.isS : Piece → Bool
  | .plain c => c.isS
  | .number _ _ => false

/-- The conversions that change the case of what lies behind their text in the buffer, up to the next NUL. -/
def Piece.isHex : Piece → Bool
  | .plain _ => false
  | .number n _ => n.kind = .x || n.kind = .X

/-- The format, its arguments, and what it stands for. -/
def pieceFmt : List (Bytes × Piece) → Bytes → Bytes
  | [], last => last ++ [0]
  | (l, p) :: r, last => l ++ (p.code ++ pieceFmt r last)

def pieceArgs (items : List (Bytes × Piece)) : List Arg := items.flatMap fun p => p.2.args

def pieceText : List (Bytes × Piece) → Bytes → Bytes
  | [], last => last
  | (l, p) :: r, last => l ++ (p.text ++ pieceText r last)

/-- A well-formed format. -/
def OkPieces : List (Bytes × Piece) → Bytes → Prop
  | [], last => OkLit last
  | (l, p) :: r, last => OkLit l ∧ p.Ok ∧ (p.isS → (pieceFmt r last).head? ≠ some 66) ∧ OkPieces r last

/-! ## Lemmas -/

def infoFlags (fl : Bytes) (i : Info) : Info :=
  { i with minus := i.minus || decide (45 ∈ fl), zero := i.zero || decide (48 ∈ fl), widthFlag := i.widthFlag || decide (48 ∈ fl) }

theorem flags_run {c : UInt8} {cs : Bytes} (hc : ¬ (c = 45 ∨ c = 43 ∨ c = 35 ∨ c = 32 ∨ c = 48)) :
    ∀ (fl : Bytes) (i : Info), (∀ f ∈ fl, f = 45 ∨ f = 43 ∨ f = 35 ∨ f = 32 ∨ f = 48) →
    flagLoop (fl ++ c :: cs) i = .ok (c :: cs, infoFlags fl i)
  | [], i, _ => by rw [List.nil_append, flag_none i hc]; simp [infoFlags]
  | f :: fl, i, h => by
    have hf := h f List.mem_cons_self
    have hr := fun i => flags_run (cs := cs) hc fl i fun g hg => h g (List.mem_cons_of_mem _ hg)
    rw [List.cons_append, flagLoop]
    rcases hf with rfl | rfl | rfl | rfl | rfl
    · rw [if_pos rfl, hr]; simp [infoFlags]
    · rw [if_neg (by decide), if_pos (by decide), hr]; simp [infoFlags]
    · rw [if_neg (by decide), if_pos (by decide), hr]; simp [infoFlags]
    · rw [if_neg (by decide), if_pos (by decide), hr]; simp [infoFlags]
    · rw [if_neg (by decide), if_neg (by decide), if_pos rfl, hr]; simp [infoFlags]

theorem scan_width {c : UInt8} {cs : Bytes} (hc : charIsDigit c = false) : ∀ (ds : List Nat) (r : Nat), (∀ d ∈ ds, d < 10) → Num.horner 10 r ds < 2 ^ 63 →
    Num.scanDigits 10 (ds.map Num.chr ++ c :: cs) (r : Int) = .ok ((Num.horner 10 r ds : Nat), ds.length)
  | [], r, _, _ => by
    have : Num.digitOf 10 c = none := by simp [Num.digitOf, hc]
    rw [List.map_nil, List.nil_append, Num.scanDigits, this]; rfl
  | d :: ds, r, hd, hlt => by
    have hd0 := hd d List.mem_cons_self
    have hm := Num.horner_mono (b := 10) (by omega) ds (r * 10 + d)
    have hh : Num.horner 10 r (d :: ds) = Num.horner 10 (r * 10 + d) ds := rfl
    rw [hh] at hlt ⊢
    have c1 : r * 10 + d < 2 ^ 63 := Nat.lt_of_le_of_lt hm hlt
    have e1 : (r : Int) * ((10 : Nat) : Int) = ((r * 10 : Nat) : Int) := (Int.natCast_mul r 10).symm
    have e2 : ((r * 10 : Nat) : Int) + (d : Int) = ((r * 10 + d : Nat) : Int) := (Int.natCast_add _ _).symm
    have s1 := Num.s64_nat (n := r * 10) (by omega)
    have s2 := Num.s64_nat c1
    rw [← e1] at s1
    rw [← e2, ← e1] at s2
    rw [List.map_cons, List.cons_append, Num.scanDigits_step _ _ _ _ _ _ (Num.digitOf_chr (.inl (by omega)) hd0) s1 s2,
      e1, e2, scan_width hc ds (r * 10 + d) (fun x hx => hd x (List.mem_cons_of_mem _ hx)) hlt, Res.ok_bind, List.length_cons]

/-- The first digit of a number that is not 0 is not 0. -/
theorem D_head {b : Nat} (hb : 2 ≤ b) : ∀ v, 0 < v → ∃ d ds, Num.D b v = d :: ds ∧ 0 < d := by
  intro v
  induction v using Nat.strongRecOn with
  | _ v ih =>
    intro h
    by_cases hv : v < b
    · exact ⟨v, [], Num.D_small hv, h⟩
    · obtain ⟨d, ds, e, hd⟩ := ih (v / b) (Nat.div_lt_self h (by omega)) (Nat.div_pos (by omega) (by omega))
      exact ⟨d, ds ++ [v % b], by rw [Num.D_big hb (by omega), e]; rfl, hd⟩

theorem digit_first : ∀ d, d < 10 → 0 < d → ¬ (Num.chr d = 45 ∨ Num.chr d = 43 ∨ Num.chr d = 35 ∨ Num.chr d = 32 ∨ Num.chr d = 48) ∧ Num.chr d ≠ 42 := by
  decide +kernel

/-- The letters behind the width. -/
def Tail (c : UInt8) : Prop := charIsDigit c = false ∧ ¬ (c = 45 ∨ c = 43 ∨ c = 35 ∨ c = 32 ∨ c = 48) ∧ c ≠ 42 ∧ c ≠ 46

theorem tail_of (n : IntConv) (rest : Bytes) : ∃ c cs, n.letters.code ++ [n.kind.code] ++ rest = c :: cs ∧ Tail c := by
  obtain ⟨f, w, le, k⟩ := n
  have hk : Tail k.code := by cases k <;> (unfold Tail; decide)
  have h1 : Tail 104 ∧ Tail 108 ∧ Tail 122 ∧ Tail 116 := by unfold Tail; decide
  cases le
  · exact ⟨_, _, rfl, hk⟩
  · exact ⟨_, _, rfl, h1.1⟩
  · exact ⟨_, _, rfl, h1.1⟩
  · exact ⟨_, _, rfl, h1.2.1⟩
  · exact ⟨_, _, rfl, h1.2.1⟩
  · exact ⟨_, _, rfl, h1.2.2.1⟩
  · exact ⟨_, _, rfl, h1.2.2.2⟩

theorem width_run (lt : Bool) {c : UInt8} {cs : Bytes} (w : Nat) (hw : w < 2 ^ 31) (ht : Tail c) (i : Info) (as : List Arg) :
    widthPart lt ((if w = 0 then [] else (Num.D 10 w).map Num.chr) ++ c :: cs) i as =
      .ok (c :: cs, { i with width := (w : Int), widthFlag := i.widthFlag || decide (w ≠ 0) }, as) := by
  by_cases h0 : w = 0
  · subst h0
    rw [if_pos rfl, List.nil_append]
    unfold widthPart
    have h45 : c ≠ 45 := fun e => ht.2.1 (.inl e)
    simp only [if_neg ht.2.2.1, scan_none lt c cs ht.1 h45, Res.ok_bind, List.drop_zero]
    have h0 : (0 : Int).bmod (2 ^ 32) = 0 := by decide
    simp [h0]
  · rw [if_neg h0]
    obtain ⟨d, ds, e, hd⟩ := D_head (b := 10) (by omega) w (by omega)
    have hlt := Num.D_lt (b := 10) (by omega) w
    have hd10 : d < 10 := hlt d (by rw [e]; simp)
    obtain ⟨hf, h42⟩ := digit_first d hd10 hd
    have hs := scan_width (cs := cs) ht.1 (Num.D 10 w) 0 hlt (by rw [Num.horner_D (by omega)]; omega)
    rw [Num.horner_D (by omega)] at hs
    have hl : ((Num.D 10 w).map Num.chr ++ c :: cs).drop (Num.D 10 w).length = c :: cs := List.drop_left' (by simp)
    rw [e] at hs hl ⊢
    simp only [List.map_cons, List.cons_append] at hs hl ⊢
    unfold widthPart
    simp only [if_neg h42]
    have hs' : Num.cStrToI64 lt (Num.chr d :: (ds.map Num.chr ++ c :: cs)) 10 = .ok ((w : Int), (d :: ds).length) := by
      unfold Num.cStrToI64 Num.scan
      have h45 : ¬ Num.chr d = 45 := fun e => hf (.inl e)
      simp only [show ¬ (10 : Nat) = 0 by omega, if_false, Res.ok_bind, h45, Num.skip0x, show ¬ (10 : Nat) = 16 by omega, List.drop_zero]
      rw [show (0 : Int) = ((0 : Nat) : Int) from rfl, hs]
      simp
    rw [hs']
    simp only [Res.ok_bind, hl]
    have hb : Int.bmod (w : Int) (2 ^ 32) = (w : Int) := bmod_int (by omega) (by omega)
    rw [hb]
    have : decide ((w : Int) ≠ 0) = decide (w ≠ 0) := by simp
    rw [this]

def Letters.size : Letters → Size
  | .none => .int
  | .hh => .char
  | .h => .short
  | .l => .long
  | .ll => .llong
  | .z => .size
  | .t => .size

theorem size_run (n : IntConv) (rest : Bytes) (i : Info) (hi : i.unsigned = false) (hs : i.size = .int) :
    sizePart (n.letters.code ++ [n.kind.code] ++ rest) i =
      .ok (n.kind.code :: rest, { i with unsigned := decide (n.letters = .z), size := n.letters.size }) := by
  obtain ⟨f, w, le, k⟩ := n
  cases i
  simp only at hi hs
  subst hi hs
  cases le <;> cases k <;> simp [Letters.code, Kind.code, sizePart, Letters.size]

/-- The information the conversion is printed with. -/
def IntConv.info (n : IntConv) : Info :=
  { base := n.kind.base, minus := decide (45 ∈ n.flags), zero := decide (48 ∈ n.flags), widthFlag := decide (48 ∈ n.flags) || decide (n.width ≠ 0),
    unsigned := !n.signed, lower := decide (n.kind = .x), upper := decide (n.kind = .X), size := n.letters.size, width := n.width, precision := -1 }

/-- The letters as the number functions write them. -/
def IntConv.raw (n : IntConv) (v : Int) : Bytes := Num.signedText n.kind.base v

theorem raw_value (n : IntConv) (v : Int) (h : n.Ok v) :
    ∃ t, (if n.info.unsigned then Num.u64ToStr (unsignedValue n.info.size v) (List.replicate 130 0) n.info.base
      else Num.i64ToStr (signedValue n.info.size v) (List.replicate 130 0) n.info.base) = .ok (n.raw v ++ 0 :: t) ∧ (0 : UInt8) ∉ n.raw v := by
  obtain ⟨_, _, hv⟩ := h
  have hb : 2 ≤ n.kind.base ∧ n.kind.base ≤ 64 := by cases n.kind <;> decide
  have hno : (0 : UInt8) ∉ n.raw v := by
    unfold IntConv.raw Num.signedText
    intro h
    rcases List.mem_append.1 h with h | h
    · revert h; split <;> decide
    · exact Num.text_no_nul hb.1 hb.2 _ h
  suffices h : ∃ t, (if n.info.unsigned then Num.u64ToStr (unsignedValue n.info.size v) (List.replicate 130 0) n.info.base
      else Num.i64ToStr (signedValue n.info.size v) (List.replicate 130 0) n.info.base) = .ok (n.raw v ++ 0 :: t) from h.imp fun t ht => ⟨ht, hno⟩
  by_cases hs : n.signed = true
  · rw [if_pos hs] at hv
    obtain ⟨h1, h2, h3⟩ := hv
    have hr : -(2 ^ 63) < v ∧ v < 2 ^ 63 ∧ signedValue n.letters.size v = v := by
      cases hl : n.letters <;> rw [hl] at h1 h2 <;> simp only [Letters.bits, Nat.add_one_sub_one] at h1 h2
      · exact ⟨by omega, by omega, by simp only [Letters.size, signedValue]; exact bmod_int (by omega) (by omega)⟩
      · exact ⟨by omega, by omega, by simp only [Letters.size, signedValue]; apply Int.bmod_eq_of_le_mul_two <;> omega⟩
      · exact ⟨by omega, by omega, by simp only [Letters.size, signedValue]; apply Int.bmod_eq_of_le_mul_two <;> omega⟩
      all_goals exact ⟨by omega, by omega, by simp only [Letters.size, signedValue]; exact bmod_llong (by omega) (by omega)⟩
    have hlen := Num.signed_len hb.1 v hr.1 hr.2.1
    refine ⟨(List.replicate 130 0).drop ((n.raw v).length + 1), ?_⟩
    simp only [IntConv.info, hs, Bool.not_true, Bool.false_eq_true, if_false, hr.2.2]
    exact Num.i64ToStr_eq hb.1 hb.2 v hr.1 hr.2.1 _ (by rw [List.length_replicate]; omega)
  · rw [if_neg hs] at hv
    simp only [Bool.not_eq_true] at hs
    obtain ⟨h1, h2⟩ := hv
    obtain ⟨m, rfl⟩ : ∃ m : Nat, v = m := ⟨v.toNat, by omega⟩
    have hr : m < 2 ^ 64 ∧ unsignedValue n.letters.size m = m := by
      cases hl : n.letters <;> rw [hl] at h2 <;> simp only [Letters.bits] at h2 <;> simp only [Letters.size, unsignedValue] <;> omega
    have hlen := Num.D_len hb.1 63 m (by omega)
    have hraw : n.raw (m : Int) = (Num.D n.kind.base m).map Num.chr := by
      unfold IntConv.raw Num.signedText
      rw [if_neg (by omega)]; simp
    refine ⟨(List.replicate 130 0).drop ((n.raw (m : Int)).length + 1), ?_⟩
    simp only [IntConv.info, hs, Bool.not_false, if_true, hr.2, hraw]
    rw [List.length_map]
    exact Num.u64ToStr_eq hb.1 hb.2 m (List.replicate 130 0) (by rw [List.length_replicate]; omega)

/-- The bytes behind the text keep their number, and a NUL stays where it was. -/
def Rest (tl tl' : Bytes) : Prop := tl'.length = tl.length ∧ ∀ k, (0 : UInt8) ∈ tl.drop k → (0 : UInt8) ∈ tl'.drop k

theorem Rest.refl (tl : Bytes) : Rest tl tl := ⟨rfl, fun _ h => h⟩

theorem mapStr_rest (f : UInt8 → UInt8) : ∀ tl : Bytes, (0 : UInt8) ∈ tl → ∃ tl', CStr.mapStr f tl = .ok tl' ∧ Rest tl tl'
  | [], h => by cases h
  | b :: tl, h => by
    by_cases hb : b = 0
    · exact ⟨b :: tl, by rw [CStr.mapStr, if_pos hb], .refl _⟩
    · have ht : (0 : UInt8) ∈ tl := by
        rcases List.mem_cons.1 h with e | e
        · exact absurd e.symm hb
        · exact e
      obtain ⟨tl', e, hl, hz⟩ := mapStr_rest f tl ht
      refine ⟨f b :: tl', by rw [CStr.mapStr, if_neg hb, e]; rfl, by simp [hl], ?_⟩
      intro k hk
      cases k with
      | zero => exact List.mem_cons_of_mem _ (hz 0 ht)
      | succ k => exact hz k hk

theorem mapStr_text (f : UInt8 → UInt8) : ∀ (a tl : Bytes), (0 : UInt8) ∉ a → (0 : UInt8) ∈ tl →
    ∃ tl', CStr.mapStr f (a ++ tl) = .ok (a.map f ++ tl') ∧ Rest tl tl'
  | [], tl, _, h => mapStr_rest f tl h
  | b :: a, tl, ha, h => by
    simp only [List.mem_cons, not_or] at ha
    obtain ⟨tl', e, hr⟩ := mapStr_text f a tl ha.2 h
    exact ⟨tl', by rw [List.cons_append, CStr.mapStr, if_neg (fun e => ha.1 e.symm), e]; rfl, hr⟩

/-- The text before the case is changed. -/
def IntConv.rawText (n : IntConv) (v : Int) : Bytes :=
  let s := n.raw v
  let fill := List.replicate (n.width - s.length) (if 48 ∈ n.flags then (48 : UInt8) else 32)
  if n.width = 0 ∧ 48 ∈ n.flags then [] else if 45 ∈ n.flags then s ++ fill else fill ++ s

theorem digit_upper : ∀ d, d < 16 → b!"0123456789ABCDEF".getD d 0 = Num.chr d := by decide +kernel
theorem digit_lower : ∀ d, d < 16 → b!"0123456789abcdef".getD d 0 = charToLower (Num.chr d) := by decide +kernel
theorem digit_keep : ∀ d, d < 16 → charToUpper (Num.chr d) = Num.chr d := by decide +kernel

theorem Kind.base_le (k : Kind) : 2 ≤ k.base ∧ k.base ≤ 16 := by cases k <;> decide

theorem digits_raw (k : Kind) (v : Nat) (hk : k ≠ .x) : k.digits v = (Num.D k.base v).map Num.chr := by
  unfold Kind.digits
  apply List.map_congr_left
  intro d hd
  rw [if_neg hk]
  exact digit_upper d (Nat.lt_of_lt_of_le (Num.D_lt k.base_le.1 v d hd) k.base_le.2)

theorem digits_lower (v : Nat) : Kind.x.digits v = ((Num.D 16 v).map Num.chr).map charToLower := by
  unfold Kind.digits
  rw [List.map_map]
  apply List.map_congr_left
  intro d hd
  rw [if_pos rfl]
  exact digit_lower d (Num.D_lt (by omega) v d hd)

theorem digits_upper (v : Nat) : ((Num.D 16 v).map Num.chr).map charToUpper = (Num.D 16 v).map Num.chr := by
  rw [List.map_map]
  apply List.map_congr_left
  intro d hd
  exact digit_keep d (Num.D_lt (by omega) v d hd)

/-- What the case conversion does to a text. -/
def IntConv.cased (n : IntConv) (t : Bytes) : Bytes :=
  if n.kind = .X then t.map charToUpper else if n.kind = .x then t.map charToLower else t

theorem fill_cased (f : UInt8 → UInt8) (hf : f 48 = 48 ∧ f 32 = 32 ∧ f 45 = 45) (n : IntConv) (v : Int) (ds : Bytes)
    (hd : n.kind.digits v.natAbs = ds.map f) (hr : n.raw v = (if v < 0 then b!"-" else []) ++ ds) : (n.rawText v).map f = n.text v := by
  have hs : ((if v < 0 then b!"-" else []) ++ n.kind.digits v.natAbs) = (n.raw v).map f := by
    rw [hr, hd, List.map_append]
    congr 1
    split
    · simp [hf.2.2]
    · rfl
  unfold IntConv.rawText IntConv.text
  rw [hs]
  have hp : f (if 48 ∈ n.flags then (48 : UInt8) else 32) = (if 48 ∈ n.flags then (48 : UInt8) else 32) := by split <;> simp [hf]
  simp only [List.length_map]
  split
  · rfl
  · split <;> simp [hp]

theorem cased_raw (n : IntConv) (v : Int) : n.cased (n.rawText v) = n.text v := by
  have hr : n.raw v = (if v < 0 then b!"-" else []) ++ (Num.D n.kind.base v.natAbs).map Num.chr := rfl
  unfold IntConv.cased
  by_cases hX : n.kind = .X
  · rw [if_pos hX]
    refine fill_cased charToUpper (by decide) n v _ ?_ hr
    rw [digits_raw _ _ (by rw [hX]; decide), hX]
    exact (digits_upper _).symm
  · rw [if_neg hX]
    by_cases hx : n.kind = .x
    · rw [if_pos hx]
      refine fill_cased charToLower (by decide) n v _ ?_ hr
      rw [hx]
      exact digits_lower _
    · rw [if_neg hx]
      have := fill_cased id (by decide) n v _ (by rw [List.map_id]; exact digits_raw _ _ hx) hr
      rwa [List.map_id] at this

theorem rawText_len (n : IntConv) (v : Int) : (n.rawText v).length = (n.text v).length := by
  rw [← cased_raw]
  unfold IntConv.cased
  split
  · simp
  · split <;> simp

theorem case_run (n : IntConv) (pre t tl : Bytes) (ht : (0 : UInt8) ∉ t) (hz : n.kind = .x ∨ n.kind = .X → (0 : UInt8) ∈ tl) :
    ∃ tl', caseConv n.info (pre ++ (t ++ tl)) pre.length = .ok (pre ++ (n.cased t ++ tl')) ∧ Rest tl tl' := by
  unfold caseConv IntConv.cased IntConv.info
  simp only [List.take_left', List.drop_left', decide_eq_true_eq]
  by_cases hX : n.kind = .X
  · obtain ⟨tl', e, hr⟩ := mapStr_text charToUpper t tl ht (hz (.inr hX))
    exact ⟨tl', by rw [if_pos hX, if_pos hX, CStr.toUpper, e]; rfl, hr⟩
  · rw [if_neg hX, if_neg hX]
    by_cases hx : n.kind = .x
    · obtain ⟨tl', e, hr⟩ := mapStr_text charToLower t tl ht (hz (.inl hx))
      exact ⟨tl', by rw [if_pos hx, if_pos hx, CStr.toLower, e]; rfl, hr⟩
    · exact ⟨tl, by rw [if_neg hx, if_neg hx], .refl _⟩

theorem number_print (n : IntConv) (v : Int) {pre tl t : Bytes} {m : Nat} (hno : (0 : UInt8) ∉ n.raw v) (hm : (n.text v).length ≤ m)
    (hl : (n.text v).length ≤ tl.length) (hz : n.kind = .x ∨ n.kind = .X → (0 : UInt8) ∈ tl.drop (n.text v).length) :
    ∃ tl', printString (pre ++ tl) pre.length m n.info (some (n.raw v ++ 0 :: t)) = .ok (pre ++ (n.text v ++ tl'), (n.text v).length) ∧
      Rest (tl.drop (n.text v).length) tl' := by
  have hlen := rawText_len n v
  rw [← hlen] at hm hl hz
  have hpad : (0 : UInt8) ≠ (if 48 ∈ n.flags then (48 : UInt8) else 32) := by split <;> decide
  have hraw0 : (0 : UInt8) ∉ n.rawText v := by
    unfold IntConv.rawText
    simp only []
    split
    · simp
    · split <;> simp [hno, hpad]
  obtain ⟨tl', hc, hrest⟩ := case_run n pre (n.rawText v) (tl.drop (n.rawText v).length) hraw0 hz
  rw [cased_raw] at hc
  rw [← hlen]
  have hk : ((n.width : Int) - ((n.raw v).length : Int)).toNat = n.width - (n.raw v).length := by omega
  unfold printString
  rw [if_neg (by simp), if_neg (by simp [IntConv.info])]
  have hpd : (if n.info.zero = true then (48 : UInt8) else 32) = (if 48 ∈ n.flags then (48 : UInt8) else 32) := by simp [IntConv.info]
  have hwf : (n.info.width = 0 ∧ n.info.widthFlag = true) ↔ (n.width = 0 ∧ 48 ∈ n.flags) := by
    by_cases h : n.width = 0 <;> simp [IntConv.info, h]
  have hmi : (n.info.width = 0 ∨ n.info.minus = true) ↔ (n.width = 0 ∨ 45 ∈ n.flags) := by
    by_cases h : n.width = 0 <;> simp [IntConv.info, h]
  have hw : n.info.width = (n.width : Int) := rfl
  simp only [CStr.len_spec (n.raw v) t hno, Res.ok_bind, hpd]
  by_cases h0 : n.width = 0 ∧ 48 ∈ n.flags
  · rw [if_pos (hwf.2 h0)]
    have ht : n.rawText v = [] := by unfold IntConv.rawText; simp only []; rw [if_pos h0]
    have ht' : n.text v = [] := List.eq_nil_of_length_eq_zero (by rw [← hlen, ht]; rfl)
    rw [ht, ht']
    exact ⟨tl, rfl, .refl _⟩
  · rw [if_neg (fun h => h0 (hwf.1 h))]
    refine ⟨tl', ?_, hrest⟩
    by_cases h45 : n.width = 0 ∨ 45 ∈ n.flags
    · rw [if_pos (hmi.2 h45)]
      have ht : n.rawText v = n.raw v ++ List.replicate (n.width - (n.raw v).length) (if 48 ∈ n.flags then (48 : UInt8) else 32) := by
        unfold IntConv.rawText
        simp only []
        rw [if_neg h0]
        rcases h45 with h | h
        · rw [h]; simp
        · rw [if_pos h]
      have htl : (n.rawText v).length = (n.raw v).length + (n.width - (n.raw v).length) := by rw [ht]; simp
      rw [if_neg (by omega), copyAt_exact hno (by omega)]
      simp only [Res.ok_bind]
      have e1 := padLoop_spec (if 48 ∈ n.flags then (48 : UInt8) else 32) (n.width - (n.raw v).length) m (pre ++ n.raw v) (tl.drop (n.raw v).length) (by omega) (by simp; omega)
      simp only [List.append_assoc, List.length_append, List.drop_drop] at e1
      rw [htl, ht] at hc
      simp only [List.append_assoc] at hc
      have e2 : (if n.info.width > ((n.raw v).length : Int) then padLoop (if 48 ∈ n.flags then (48 : UInt8) else 32) (n.info.width - ((n.raw v).length : Int)).toNat m
          (pre ++ (n.raw v ++ tl.drop (n.raw v).length)) (pre.length + (n.raw v).length) else .ok (pre ++ (n.raw v ++ tl.drop (n.raw v).length), 0)) =
          .ok (pre ++ (n.raw v ++ (List.replicate (n.width - (n.raw v).length) (if 48 ∈ n.flags then (48 : UInt8) else 32) ++
            tl.drop ((n.raw v).length + (n.width - (n.raw v).length)))), n.width - (n.raw v).length) := by
        rw [hw, hk]
        split
        · exact e1
        · rename_i hle
          have : n.width - (n.raw v).length = 0 := by omega
          simp [this]
      rw [e2]
      simp only [Res.ok_bind]
      rw [hc, htl]
      rfl
    · rw [if_neg (fun h => h45 (hmi.1 h))]
      simp only [not_or] at h45
      have ht : n.rawText v = List.replicate (n.width - (n.raw v).length) (if 48 ∈ n.flags then (48 : UInt8) else 32) ++ n.raw v := by
        unfold IntConv.rawText
        simp only []
        rw [if_neg h0, if_neg h45.2]
      have htl : (n.rawText v).length = (n.width - (n.raw v).length) + (n.raw v).length := by rw [ht]; simp
      rw [hw, if_pos (by omega), hk, padLoop_spec _ _ m pre tl (by omega) (by omega)]
      simp only [Res.ok_bind]
      rw [if_neg (by omega)]
      have e1 := copyAt_exact (pre := pre ++ List.replicate (n.width - (n.raw v).length) (if 48 ∈ n.flags then (48 : UInt8) else 32)) (tl := tl.drop (n.width - (n.raw v).length)) (s := n.raw v) (t := 0 :: t) hno
        (by simp; omega)
      simp only [List.append_assoc, List.length_append, List.length_replicate, List.drop_drop] at e1
      rw [e1]
      simp only [Res.ok_bind]
      rw [htl, ht] at hc
      simp only [List.append_assoc] at hc
      rw [hc, htl]
      rfl

theorem conv_number (lt : Bool) (n : IntConv) (v : Int) {pre tl rest : Bytes} {m : Nat} {as : List Arg} (h : n.Ok v) (hm : (n.text v).length ≤ m)
    (hl : (n.text v).length ≤ tl.length) (hz : n.kind = .x ∨ n.kind = .X → (0 : UInt8) ∈ tl.drop (n.text v).length) :
    ∃ tl', afterLit lt (n.code ++ rest) (pre ++ tl) pre.length m (.int v :: as) =
      endTurn pre.length m (rest, pre ++ (n.text v ++ tl'), (n.text v).length, as) ∧ Rest (tl.drop (n.text v).length) tl' := by
  obtain ⟨t, hv, hno⟩ := raw_value n v h
  obtain ⟨tl', hp, hr⟩ := number_print n v (pre := pre) (t := t) hno hm hl hz
  refine ⟨tl', ?_, hr⟩
  obtain ⟨hf, hw, _⟩ := h
  obtain ⟨c, cs, hcs, htail⟩ := tail_of n rest
  have hwc : ∃ c' cs', (if n.width = 0 then [] else (Num.D 10 n.width).map Num.chr) ++ c :: cs = c' :: cs' ∧
      ¬ (c' = 45 ∨ c' = 43 ∨ c' = 35 ∨ c' = 32 ∨ c' = 48) := by
    by_cases h0 : n.width = 0
    · rw [if_pos h0]; exact ⟨c, cs, rfl, htail.2.1⟩
    · obtain ⟨d, ds, e, hd⟩ := D_head (b := 10) (by omega) n.width (by omega)
      have hd10 : d < 10 := Num.D_lt (b := 10) (by omega) n.width d (by rw [e]; simp)
      rw [if_neg h0, e]
      exact ⟨_, _, rfl, (digit_first d hd10 hd).1⟩
  obtain ⟨c', cs', hcs', hc'⟩ := hwc
  have hcode : n.code ++ rest = 37 :: (n.flags ++ c' :: cs') := by
    rw [← hcs', ← hcs]; simp [IntConv.code]
  have h1 := flags_run (cs := cs') hc' n.flags {} hf
  have h2 := width_run lt (cs := cs) n.width hw htail (infoFlags n.flags {}) (.int v :: as)
  rw [hcs'] at h2
  have h3 : ∀ i : Info, precisionPart lt (c :: cs) i (.int v :: as) = .ok (c :: cs, i, .int v :: as) := by
    intro i; simp [precisionPart, htail.2.2.2]
  have h4 := size_run n rest { infoFlags n.flags {} with width := (n.width : Int), widthFlag := (infoFlags n.flags {}).widthFlag || decide (n.width ≠ 0) } rfl rfl
  rw [hcs] at h4
  rw [hcode, afterLit_parts lt h1 h2 (h3 _) h4]
  have hconv : ∀ i : Info, i = { infoFlags n.flags {} with width := (n.width : Int), widthFlag := (infoFlags n.flags {}).widthFlag || decide (n.width ≠ 0), unsigned := decide (n.letters = .z), size := n.letters.size } →
      convPart (n.kind.code :: rest) (pre ++ tl) pre.length m i (.int v :: as) =
        (intConv (pre ++ tl) pre.length m n.info (.int v :: as)).bind fun (buf, len, args) => .ok (rest, buf, len, args) := by
    intro i hi
    have hinfo : n.info = { i with base := n.kind.base, unsigned := !n.signed, lower := decide (n.kind = .x), upper := decide (n.kind = .X) } := by
      subst hi; simp [IntConv.info, infoFlags]
    have hu : i.unsigned = decide (n.letters = .z) := by subst hi; rfl
    have hlo : i.lower = false ∧ i.upper = false := by subst hi; exact ⟨rfl, rfl⟩
    rw [hinfo]
    obtain ⟨fl, w, le, k⟩ := n
    simp only at hu
    cases i
    simp only at hu hlo
    subst hu
    obtain ⟨hlo, hup⟩ := hlo
    subst hlo hup
    cases k <;> cases le <;> rfl
  rw [hconv _ rfl]
  have hint : intConv (pre ++ tl) pre.length m n.info (.int v :: as) = .ok (pre ++ (n.text v ++ tl'), (n.text v).length, as) := by
    unfold intConv
    simp only [printU64, printI64]
    have : (if n.info.unsigned = true then
        (Num.u64ToStr (unsignedValue n.info.size v) (List.replicate 130 0) n.info.base).bind fun s => printString (pre ++ tl) pre.length m n.info (some s)
      else (Num.i64ToStr (signedValue n.info.size v) (List.replicate 130 0) n.info.base).bind fun s => printString (pre ++ tl) pre.length m n.info (some s)) =
      .ok (pre ++ (n.text v ++ tl'), (n.text v).length) := by
      split at hv
      · rename_i hs
        rw [if_pos hs, hv, Res.ok_bind, hp]
      · rename_i hs
        rw [if_neg hs, hv, Res.ok_bind, hp]
    rw [this]
    rfl
  rw [hint]
  rfl

theorem piece_step (lt : Bool) (p : Piece) (pre tl rest : Bytes) (m : Nat) (as : List Arg) (hp : p.Ok) (hr : p.isS → rest.head? ≠ some 66)
    (hne : rest ≠ []) (hm : p.text.length ≤ m) (hl : p.text.length ≤ tl.length) (hz : p.isHex → (0 : UInt8) ∈ tl.drop p.text.length) :
    ∃ tl', afterLit lt (p.code ++ rest) (pre ++ tl) pre.length m (p.args ++ as) =
      endTurn pre.length m (rest, pre ++ (p.text ++ tl'), p.text.length, as) ∧ Rest (tl.drop p.text.length) tl' := by
  cases p with
  | plain c =>
    refine ⟨tl.drop c.text.length, ?_, .refl _⟩
    have := conv_step lt c pre tl rest m as hp hr hne (fun _ => hl)
    rw [out_eq, show kept m c.text = c.text from if_pos hm] at this
    exact this
  | number n v =>
    refine conv_number lt n v hp hm hl (fun h => hz ?_)
    simp only [Piece.isHex, Bool.or_eq_true, decide_eq_true_eq]
    exact h

theorem pieceFmt_ne (items : List (Bytes × Piece)) (last : Bytes) : pieceFmt items last ≠ [] := by
  cases items with
  | nil => simp [pieceFmt]
  | cons a r =>
    obtain ⟨l, p⟩ := a
    cases p with
    | plain c => cases c <;> simp [pieceFmt, Piece.code, Conv.code]
    | number n v => simp [pieceFmt, Piece.code, IntConv.code]

theorem piece_head (p : Piece) (rest : Bytes) : (p.code ++ rest).head? = some 37 := by
  cases p with
  | plain c => exact code_head c rest
  | number n v => rfl

theorem outer_pieces (lt : Bool) : ∀ (items : List (Bytes × Piece)) (last pre tl : Bytes) (m fuel : Nat) (as : List Arg),
    OkPieces items last → (pieceText items last).length < m → (pieceText items last).length ≤ tl.length →
    ((∃ x ∈ items, x.2.isHex) → (0 : UInt8) ∈ tl.drop (pieceText items last).length) → items.length < fuel →
    ∃ rem tl', outer lt fuel { fmt := pieceFmt items last, buf := pre ++ tl, pos := pre.length, remaining := m, args := pieceArgs items ++ as } =
      .ok { fmt := [0], buf := pre ++ (pieceText items last ++ tl'), pos := pre.length + (pieceText items last).length, remaining := rem, args := as } ∧
      tl'.length = tl.length - (pieceText items last).length
  | [], last, pre, tl, m, fuel, as, ho, hm, hl, hz, hf => by
    obtain ⟨rem, h⟩ := outer_spec lt [] last pre tl m fuel as ho (by omega) hl hf
    exact ⟨rem, _, h, by simp [placed, pieceText]⟩
  | (l, p) :: r, last, pre, tl, m, fuel, as, ho, hm, hl, hz, hf => by
    obtain ⟨fuel, rfl⟩ : ∃ k, fuel = k + 1 := ⟨fuel - 1, by simp at hf; omega⟩
    obtain ⟨hlit, hp, hB, ho⟩ := ho
    simp only [pieceText, List.length_append] at hl hm hz
    have h1 := literalRun_spec (by omega : m ≠ 0) l pre tl (p.code ++ pieceFmt r last) hlit (by omega) (.inr (piece_head _ _))
    have mem_drop : ∀ (a k : Nat) (t : Bytes), (0 : UInt8) ∈ t.drop (a + k) → (0 : UInt8) ∈ (t.drop a).drop k := by
      intro a k t h; rwa [List.drop_drop]
    have mem_less : ∀ (a b : Nat) (t : Bytes), a ≤ b → (0 : UInt8) ∈ t.drop b → (0 : UInt8) ∈ t.drop a := by
      intro a b t hab h
      have : t.drop b = (t.drop a).drop (b - a) := by rw [List.drop_drop]; congr 1; omega
      rw [this] at h
      exact List.mem_of_mem_drop h
    obtain ⟨tl1, h2, hlen1, hz1⟩ := piece_step lt p (pre ++ l) (tl.drop l.length) (pieceFmt r last) m (pieceArgs r ++ as) hp hB (pieceFmt_ne _ _) (by omega)
      (by simp; omega) (fun h => mem_drop _ _ _ (mem_less _ _ _ (by omega) (hz ⟨_, List.mem_cons_self, h⟩)))
    simp only [List.length_drop] at hlen1
    obtain ⟨rem, tl', h3, hlen⟩ := outer_pieces lt r last (pre ++ (l ++ p.text)) tl1 (left m p.text.length) fuel as ho (by unfold left; split <;> omega)
      (by omega) (by
        rintro ⟨x, hx, hh⟩
        refine hz1 _ ?_
        simp only [List.drop_drop]
        exact mem_less _ _ _ (by omega) (hz ⟨x, List.mem_cons_of_mem _ hx, hh⟩)) (by simp at hf; omega)
    refine ⟨rem, tl', ?_, by simp only [pieceText, List.length_append]; omega⟩
    obtain ⟨x, xs, hx⟩ := List.exists_cons_of_ne_nil (show l ++ (p.code ++ pieceFmt r last) ≠ [] by
      have := piece_head p (pieceFmt r last)
      intro e
      rw [(List.append_eq_nil_iff.1 e).2] at this
      cases this)
    have hx0 : ¬ x = 0 := by
      intro e
      cases l with
      | nil =>
        have := piece_head p (pieceFmt r last)
        simp only [List.nil_append] at hx
        rw [hx] at this
        simp [e] at this
      | cons y l =>
        simp only [List.cons_append, List.cons.injEq] at hx
        exact hlit.1 (by simp [hx.1, e])
    have harg : pieceArgs ((l, p) :: r) ++ as = p.args ++ (pieceArgs r ++ as) := by simp [pieceArgs]
    simp only [pieceFmt, harg]
    rw [outer_turn lt hx hx0, turn_eq]
    simp only [h1, Res.ok_bind]
    rw [← List.append_assoc]
    simp only [List.length_append] at h2
    rw [h2]
    simp only [endTurn, Res.ok_bind]
    simp only [List.append_assoc, List.length_append] at h3 ⊢
    simp only [Nat.add_assoc] at h3 ⊢
    rw [h3]
    simp [pieceText]

theorem pieces_lt (items : List (Bytes × Piece)) (last : Bytes) : items.length < (pieceFmt items last).length := by
  induction items with
  | nil => simp [pieceFmt]
  | cons a r ih =>
    obtain ⟨l, p⟩ := a
    have := piece_head p []
    have : 1 ≤ p.code.length := by
      cases h : p.code with
      | nil => rw [h] at this; cases this
      | cons => simp
    simp [pieceFmt]; omega

/-- C36: every format made of literals, of the plain conversions, and of conversions of integers with any flags, widths and length letters: if its text,
its NUL and one byte more fit into the announced size and the buffer has room for them, then the buffer holds that text, NUL-terminated, its size does not
change, and the number of characters is returned. `%x` and `%X` want a NUL in the buffer behind the text. -/
theorem C36_pieces_partial (lt : Bool) (items : List (Bytes × Piece)) (last buf : Bytes) (max : Nat) (ho : OkPieces items last)
    (h : (pieceText items last).length + 1 < max) (hb : max ≤ buf.length)
    (hz : (∃ x ∈ items, x.2.isHex) → (0 : UInt8) ∈ buf.drop (pieceText items last).length) :
    ∃ tail, cStrFmt lt buf max (pieceFmt items last) (pieceArgs items) =
      .ok (pieceText items last ++ 0 :: tail, ((pieceText items last).length : Int) + 1) ∧ (pieceText items last ++ 0 :: tail).length = buf.length := by
  obtain ⟨rem, tl', ho, hlen⟩ := outer_pieces lt items last [] buf max (pieceFmt items last).length [] ho (by omega) (by omega) hz (pieces_lt _ _)
  simp only [List.nil_append, List.append_nil, List.length_nil, Nat.zero_add] at ho
  obtain ⟨x, tail, rfl⟩ := List.exists_cons_of_ne_nil (show tl' ≠ [] by intro e; rw [e] at hlen; simp at hlen; omega)
  refine ⟨tail, ?_, by simp only [List.length_append, List.length_cons] at hlen ⊢; omega⟩
  unfold cStrFmt
  rw [ho]
  simp only [Res.ok_bind]
  rw [Num.put_split _ _ _ _ _ rfl]
  simp only [Res.ok_bind]
  rw [if_neg (by omega)]
  rfl

/-- `strbuilder_append_fmt` appends the text of such a format, whenever it is shorter than 131070 bytes; its buffer is empty, so `%x` and `%X` are no
exception. -/
theorem C36_append_pieces_partial (lt : Bool) (sb : SB) (items : List (Bytes × Piece)) (last : Bytes) (ho : OkPieces items last)
    (h : (pieceText items last).length + 2 < printfMax) :
    ∃ tail, appendFmt lt sb (pieceFmt items last) (pieceArgs items) = sb.appendLen (some (pieceText items last ++ tail)) (pieceText items last).length := by
  obtain ⟨tail, e, _⟩ := C36_pieces_partial lt items last (List.replicate printfMax 0) (printfMax - 1) ho (by omega) (by simp)
    (fun _ => by rw [List.drop_replicate]; exact List.mem_replicate.2 ⟨by omega, rfl⟩)
  refine ⟨0 :: tail, ?_⟩
  unfold appendFmt
  rw [e]
  simp only [Res.ok_bind]
  rw [if_neg (by omega)]
  congr 1
  omega

/-- The text is the one of the C standard if the flags `+`, `#` and blank are not used, `-` and `0` not together, and `0` only with a width and for numbers
that are not negative. -/
theorem C36_standard_partial (n : IntConv) (v : Int) (h1 : 43 ∉ n.flags) (h2 : 35 ∉ n.flags) (h3 : 32 ∉ n.flags)
    (h4 : 48 ∈ n.flags → 45 ∉ n.flags ∧ n.width ≠ 0 ∧ 0 ≤ v) : n.text v = n.standard v := by
  unfold IntConv.text IntConv.standard
  simp only [h1, h2, h3, and_false, false_and, if_false, List.append_nil]
  by_cases h48 : 48 ∈ n.flags
  · obtain ⟨h45, hw, hv⟩ := h4 h48
    have hv' : ¬ v < 0 := by omega
    simp [h45, hw, h48, hv']
  · by_cases h45 : 45 ∈ n.flags <;> simp [h48, h45]

/-- What the other flags do instead: nothing (`+`, `#`, blank), zeros on the right (`-0`), zeros in front of the sign (`0`), and nothing is printed
(`0` without a width). -/
theorem C36_flags_refuted (v : Nat) :
    IntConv.text ⟨b!"+", 0, .none, .d⟩ v = IntConv.text ⟨[], 0, .none, .d⟩ v ∧ IntConv.standard ⟨b!"+", 0, .none, .d⟩ v = 43 :: IntConv.text ⟨[], 0, .none, .d⟩ v ∧
    IntConv.text ⟨b!"0", 0, .none, .d⟩ v = [] ∧ IntConv.standard ⟨b!"0", 0, .none, .d⟩ v = IntConv.text ⟨[], 0, .none, .d⟩ v ∧
    IntConv.text ⟨b!"-0", 5, .none, .d⟩ 42 = b!"42000" ∧ IntConv.standard ⟨b!"-0", 5, .none, .d⟩ 42 = b!"42   " ∧
    IntConv.text ⟨b!"0", 5, .none, .d⟩ (-42) = b!"00-42" ∧ IntConv.standard ⟨b!"0", 5, .none, .d⟩ (-42) = b!"-0042" ∧
    IntConv.text ⟨b!"#", 0, .none, .x⟩ 255 = b!"ff" ∧ IntConv.standard ⟨b!"#", 0, .none, .x⟩ 255 = b!"0xff" := by
  have hv : ¬ (v : Int) < 0 := by omega
  refine ⟨?_, ?_, ?_, ?_, ?_⟩
  · simp [IntConv.text]
  · simp [IntConv.text, IntConv.standard, hv, Kind.digits]
  · simp [IntConv.text]
  · simp [IntConv.text, IntConv.standard, Kind.digits]
  · decide +kernel

/-- `%zd` is unsigned: -1 is printed as the largest number. `%o` is signed. A precision cuts the number off. -/
theorem C36_size_refuted :
    cStrFmt true (List.replicate 30 0) 30 b!"%zd\x00" [.int (-1)] = .ok (b!"18446744073709551615" ++ List.replicate 10 0, 21) ∧
    cStrFmt true (List.replicate 30 0) 30 b!"%o\x00" [.int (-1)] = .ok (b!"-1" ++ List.replicate 28 0, 3) ∧
    cStrFmt true (List.replicate 30 0) 30 b!"%.1d\x00" [.int 42] = .ok (b!"4" ++ List.replicate 29 0, 2) := by decide +kernel

/-! ### Non-vacuity -/

def exPieces : List (Bytes × Piece) :=
  [(b!"a = ", .number ⟨b!"0", 8, .none, .x⟩ 48879), (b!", b = ", .number ⟨b!"-", 6, .hh, .d⟩ (-12)), (b!"|", .plain (.cstr b!"Name" [])),
    (b!" ", .number ⟨[], 12, .ll, .u⟩ 18446744073709551615), (b!" ", .number ⟨[], 4, .h, .X⟩ 250)]

instance (l : Bytes) : Decidable (OkLit l) := by unfold OkLit; infer_instance
instance (n : IntConv) (v : Int) : Decidable (Piece.number n v).Ok := inferInstanceAs (Decidable (n.Ok v))
instance (last : Bytes) : Decidable (OkPieces [] last) := inferInstanceAs (Decidable (OkLit last))

example : OkPieces exPieces [10] := by
  refine ⟨by decide, by decide +kernel, by decide, ⟨by decide, by decide +kernel, by decide, ⟨by decide, ?_, by decide, ⟨by decide, by decide +kernel, by decide,
    ⟨by decide, by decide +kernel, by decide, by decide⟩⟩⟩⟩⟩
  show (0 : UInt8) ∉ b!"Name"
  decide

example : pieceFmt exPieces [10] = b!"a = %08x, b = %-6hhd|%s %12llu %4hX\n\x00" := by decide +kernel
example : pieceText exPieces [10] = b!"a = 0000beef, b = -12   |Name 18446744073709551615   FA\n" := by decide +kernel

end Verif.Fmt
