import Verif.Props.CsvWrite
/-! # Formats with zero padding and hexadecimal numbers, written to a file -/
namespace Verif.Adt
open Verif.Fmt
open Verif.CsvWrite (fileFmt)

/-- A literal and a conversion behind it. -/
structure Piece where
  lit : Bytes
  code : Bytes
  args : List Arg
  text : Bytes

/-- The conversion writes `text` into a buffer of zeros that has room for it. -/
def Piece.Runs (lt : Bool) (p : Piece) : Prop :=
  (∃ c, p.code = 37 :: c) ∧ OkLit p.lit ∧ ∀ (pre rest : Bytes) (k m : Nat) (as : List Arg), rest ≠ [] → p.text.length < m → p.text.length < k →
    afterLit lt (p.code ++ rest) (pre ++ List.replicate k 0) pre.length m (p.args ++ as) =
      endTurn pre.length m (rest, pre ++ (p.text ++ List.replicate (k - p.text.length) 0), p.text.length, as)

def pieceFmt : List Piece → Bytes
  | [] => [0]
  | p :: ps => p.lit ++ (p.code ++ pieceFmt ps)

def pieceText : List Piece → Bytes
  | [] => []
  | p :: ps => p.lit ++ (p.text ++ pieceText ps)

def pieceArgs (ps : List Piece) : List Arg := ps.flatMap fun p => p.args

theorem pieceFmt_ne (ps : List Piece) : pieceFmt ps ≠ [] := by
  cases ps with
  | nil => simp [pieceFmt]
  | cons p ps =>
    intro h
    simp only [pieceFmt, List.append_eq_nil_iff] at h
    have : pieceFmt ps = [] := h.2.2
    cases ps with
    | nil => simp [pieceFmt] at this
    | cons q qs => exact absurd this (pieceFmt_ne (q :: qs))

theorem outer_pieces (lt : Bool) : ∀ (ps : List Piece) (pre : Bytes) (k m fuel : Nat), (∀ p ∈ ps, p.Runs lt) → (pieceText ps).length < m →
    (pieceText ps).length < k → ps.length < fuel →
    ∃ rem, outer lt fuel { fmt := pieceFmt ps, buf := pre ++ List.replicate k 0, pos := pre.length, remaining := m, args := pieceArgs ps } =
      .ok { fmt := [0], buf := pre ++ (pieceText ps ++ List.replicate (k - (pieceText ps).length) 0), pos := pre.length + (pieceText ps).length, remaining := rem, args := [] }
  | [], pre, k, m, fuel + 1, _, _, _, _ => ⟨m, by simp [outer, pieceFmt, pieceArgs, pieceText]⟩
  | p :: ps, pre, k, m, fuel + 1, hp, hm, hk, hf => by
    obtain ⟨⟨c, hc⟩, hlit, hrun⟩ := hp p (by simp)
    simp only [pieceText, List.length_append] at hm hk
    have h1 := literalRun_spec (m := m) (by omega) p.lit pre (List.replicate k 0) (p.code ++ pieceFmt ps) hlit (by simp; omega)
      (.inr (by rw [hc]; rfl))
    rw [List.drop_replicate] at h1
    have h2 := hrun (pre ++ p.lit) (pieceFmt ps) (k - p.lit.length) m (pieceArgs ps) (pieceFmt_ne ps) (by omega) (by omega)
    obtain ⟨rem, h3⟩ := outer_pieces lt ps (pre ++ (p.lit ++ p.text)) (k - p.lit.length - p.text.length) (m - p.text.length) fuel
      (fun q hq => hp q (List.mem_cons_of_mem _ hq)) (by omega) (by omega) (by simpa using hf)
    refine ⟨rem, ?_⟩
    obtain ⟨x, xs, hx⟩ := List.exists_cons_of_ne_nil (show p.lit ++ (p.code ++ pieceFmt ps) ≠ [] by rw [hc]; simp)
    have hx0 : ¬ x = 0 := by
      intro e
      cases hl : p.lit with
      | nil =>
        rw [hl, hc] at hx
        simp only [List.nil_append, List.cons_append, List.cons.injEq] at hx
        rw [← hx.1] at e
        exact absurd e (by decide)
      | cons y l =>
        rw [hl] at hx
        simp only [List.cons_append, List.cons.injEq] at hx
        exact hlit.1 (by rw [hl]; simp [hx.1, e])
    have harg : pieceArgs (p :: ps) = p.args ++ pieceArgs ps := rfl
    simp only [pieceFmt, harg]
    conv => lhs; unfold outer
    simp only [hx, if_neg hx0, turn_eq]
    rw [← hx, h1]
    simp only [Res.ok_bind]
    simp only [List.append_assoc, List.length_append] at h2 h3 ⊢
    rw [h2]
    unfold endTurn
    simp only [Res.ok_bind]
    rw [show left m p.text.length = m - p.text.length by unfold left; rw [if_neg (by omega)]]
    rw [Nat.add_assoc]
    rw [h3]
    simp only [pieceText, List.append_assoc, List.length_append, Nat.sub_sub, Nat.add_assoc]

/-- A format of such pieces is written as their texts. -/
theorem fileFmt_pieces (lt : Bool) {fmt : Bytes} {args : List Arg} (ps : List Piece) (hf : fmt ++ [0] = pieceFmt ps) (ha : args = pieceArgs ps)
    (hp : ∀ p ∈ ps, p.Runs lt) (h : (pieceText ps).length + 1 < printfMax) (hl : ps.length < (pieceFmt ps).length) : fileFmt lt fmt args = .ok (pieceText ps) := by
  obtain ⟨rem, ho⟩ := outer_pieces lt ps [] printfMax printfMax (pieceFmt ps).length hp (by omega) (by omega) hl
  simp only [List.nil_append, List.length_nil, Nat.zero_add] at ho
  have hput := Num.put_split (pieceText ps) (List.replicate (printfMax - (pieceText ps).length - 1) 0) 0 0 _ rfl
  have hz : (0 : UInt8) :: List.replicate (printfMax - (pieceText ps).length - 1) 0 = List.replicate (printfMax - (pieceText ps).length) 0 := by
    rw [← List.replicate_succ]; congr 1; omega
  rw [hz] at hput
  unfold fileFmt cStrFmt
  rw [hf, ha, ho]
  simp only [Res.ok_bind]
  rw [hput, Res.ok_bind, Res.ok_bind]
  dsimp only
  rw [if_neg (show ¬ ((pieceText ps).length + 1 ≥ printfMax) by omega)]
  rw [if_neg (by omega)]
  congr 1
  rw [show (((pieceText ps).length + 1 : Nat) - 1 : Int).toNat = (pieceText ps).length by omega]
  exact List.take_left' rfl

/-! ### The conversions of adt_print_number -/

/-- `%lld`. -/
def Piece.llong (lit : Bytes) (v : Int) : Piece := ⟨lit, b!"%lld", [.int v], Num.signedText 10 v⟩

theorem llong_runs (lt : Bool) {lit : Bytes} {v : Int} (hlit : OkLit lit) (h1 : -(2 ^ 63) < v) (h2 : v < 2 ^ 63) : (Piece.llong lit v).Runs lt := by
  refine ⟨⟨_, rfl⟩, hlit, ?_⟩
  intro pre rest k m as hne hm hk
  simp only [Piece.llong] at hm hk ⊢
  have := conv_llong lt (pre := pre) (tl := List.replicate k 0) (rest := rest) (m := m) (as := as) h1 h2 (by intro _; simp; omega)
  rw [out_eq] at this
  unfold kept at this
  rw [if_pos (by omega)] at this
  simp only [List.drop_replicate] at this
  exact this

/-- `%0*d` with a width and a zero. -/
def Piece.pad (lit : Bytes) (w : Nat) : Piece := ⟨lit, b!"%0*d", [.int w, .int 0], List.replicate w 48⟩

theorem pad_print {pre : Bytes} {k m w : Nat} (hm : w < m) (hk : w < k) :
    printI64 (pre ++ List.replicate k 0) pre.length m { zero := true, widthFlag := true, width := (w : Int), base := 10 } 0 =
      .ok (pre ++ (List.replicate w 48 ++ List.replicate (k - w) 0), w) := by
  unfold printI64
  have ht : Num.signedText 10 0 = [48] := by
    unfold Num.signedText
    rw [Num.D_small (by decide)]
    rfl
  show (Num.i64ToStr 0 (List.replicate 130 0) 10).bind _ = _
  rw [Num.i64ToStr_eq (by omega) (by omega) 0 (by omega) (by omega) _ (by rw [ht]; simp)]
  simp only [Res.ok_bind]
  rw [ht]
  unfold printString
  have h0 : (0 : UInt8) ∉ ([48] : Bytes) := by decide
  rw [if_neg (by simp), if_neg (by simp)]
  simp only [CStr.len_spec [48] _ h0, Res.ok_bind]
  by_cases hw : w = 0
  · subst hw
    simp
  · rw [if_neg (by omega)]
    simp only [if_true]
    rw [if_neg (by simp; omega), if_pos (by omega)]
    have hpl := padLoop_spec 48 (w - 1) m pre (List.replicate k 0) (by omega) (by simp; omega)
    rw [show ((w : Int) - (([48] : Bytes).length : Int)).toNat = w - 1 by simp, hpl]
    simp only [Res.ok_bind]
    rw [if_neg (by simp; omega)]
    have hc := copyAt_exact (pre := pre ++ List.replicate (w - 1) 48) (tl := (List.replicate k 0).drop (w - 1)) (s := [48])
      (t := 0 :: List.drop (([48] : Bytes).length + 1) (List.replicate 130 0)) h0 (by simp; omega)
    simp only [List.append_assoc, List.length_append, List.length_replicate] at hc
    rw [hc]
    simp only [Res.ok_bind, caseConv]
    rw [if_neg (by simp), if_neg (by simp)]
    simp only [Res.ok_bind]
    have hr : List.replicate w (48 : UInt8) = List.replicate (w - 1) 48 ++ [48] := by
      rw [show w = (w - 1) + 1 by omega, List.replicate_succ']; rfl
    rw [hr, List.append_assoc, List.drop_drop, List.drop_replicate]
    congr 3
    · simp; congr 1; omega
    · simp; omega

theorem pad_runs (lt : Bool) {lit : Bytes} {w : Nat} (hlit : OkLit lit) (hw : w < 2 ^ 31) : (Piece.pad lit w).Runs lt := by
  refine ⟨⟨_, rfl⟩, hlit, ?_⟩
  intro pre rest k m as hne hm hk
  simp only [Piece.pad, List.length_replicate] at hm hk ⊢
  have e0 : ∀ r : Bytes, flagLoop (48 :: 42 :: r) {} = .ok (42 :: r, { zero := true, widthFlag := true }) := by intro r; simp [flagLoop]
  have e1 : widthPart lt (42 :: 100 :: rest) { zero := true, widthFlag := true } (.int w :: .int 0 :: as) =
      .ok (100 :: rest, { zero := true, widthFlag := true, width := (w : Int) }, .int 0 :: as) := by
    simp only [widthPart, if_true, takeInt, bmod_int (len31 w) (len31' hw), Res.ok_bind]
    rw [if_neg (by omega)]
  have e2 : ∀ (info : Info) (as : List Arg), precisionPart lt (100 :: rest) info as = .ok (100 :: rest, info, as) := by
    intro i as; simp [precisionPart]
  have e3 : ∀ info : Info, sizePart (100 :: rest) info = .ok (100 :: rest, info) := by intro i; simp [sizePart]
  show afterLit lt (37 :: 48 :: 42 :: 100 :: rest) _ _ _ (.int w :: .int 0 :: as) = _
  rw [afterLit_parts lt (e0 _) e1 (e2 _ _) (e3 _)]
  have : convPart (100 :: rest) (pre ++ List.replicate k 0) pre.length m { zero := true, widthFlag := true, width := (w : Int) } (.int 0 :: as) =
      (printI64 (pre ++ List.replicate k 0) pre.length m { zero := true, widthFlag := true, width := (w : Int), base := 10 } 0).bind fun (buf, len) =>
        .ok (rest, buf, len, as) := by
    simp [convPart, intConv, signedValue]
    generalize printI64 _ _ _ _ _ = x
    cases x <;> rfl
  rw [this, pad_print hm hk]
  rfl

/-- A number in base 16 with small letters. -/
def hexText (v : Nat) : Bytes := (Num.D 16 v).map fun d => UInt8.ofNat (if d < 10 then 48 + d else 87 + d)

theorem hexText_eq (v : Nat) : hexText v = ((Num.D 16 v).map Num.chr).map charToLower := by
  unfold hexText
  rw [List.map_map]
  apply List.map_congr_left
  intro d hd
  have := Num.D_lt (b := 16) (by omega) v d hd
  have hall : ∀ k : Fin 16, UInt8.ofNat (if k.val < 10 then 48 + k.val else 87 + k.val) = charToLower (Num.chr k.val) := by decide
  exact hall ⟨d, this⟩

theorem mapStr_spec (f : UInt8 → UInt8) : ∀ (s t : Bytes), (0 : UInt8) ∉ s → CStr.mapStr f (s ++ 0 :: t) = .ok (s.map f ++ 0 :: t)
  | [], t, _ => by simp [CStr.mapStr]
  | b :: s, t, h => by
    simp only [List.mem_cons, not_or] at h
    have hb : ¬ b = 0 := fun e => h.1 e.symm
    simp [CStr.mapStr, hb, mapStr_spec f s t h.2, Res.ok_bind]

/-- `%llx`. -/
def Piece.hex (lit : Bytes) (v : Nat) : Piece := ⟨lit, b!"%llx", [.int v], hexText v⟩

theorem hex_print {pre : Bytes} {k m v : Nat} {info : Info} (hv : v < 2 ^ 64) (hm : (hexText v).length < m) (hk : (hexText v).length < k)
    (hb : info.base = 16) (hp : info.precision = -1) (hw : info.width = 0) (hf : info.widthFlag = false) (hu : info.upper = false) (hlo : info.lower = true) :
    printU64 (pre ++ List.replicate k 0) pre.length m info v =
      .ok (pre ++ (hexText v ++ List.replicate (k - (hexText v).length) 0), (hexText v).length) := by
  have hd := Num.D_len (b := 16) (by omega) 63 v (by omega)
  have hnn := Num.text_no_nul (b := 16) (by omega) (by omega) v
  have hlen : (hexText v).length = (Num.D 16 v).length := by unfold hexText; simp
  unfold printU64
  rw [hb, Num.u64ToStr_eq (by omega) (by omega) v _ (by simp; omega)]
  simp only [Res.ok_bind]
  unfold printString
  rw [if_neg (by simp), if_neg (by omega)]
  simp only [CStr.len_spec _ _ hnn, Res.ok_bind, hw, hf, Bool.false_eq_true, and_false, if_false, true_or, if_true]
  rw [if_neg (by simp; omega)]
  rw [copyAt_exact (pre := pre) (tl := List.replicate k 0) hnn (by simp; omega)]
  simp only [Res.ok_bind]
  rw [if_neg (by omega)]
  simp only [Res.ok_bind, caseConv, hu, hlo, Bool.false_eq_true, if_false, if_true, List.drop_left, CStr.toLower, List.take_left]
  rw [List.drop_replicate, List.length_map, show k - (Num.D 16 v).length = (k - (Num.D 16 v).length - 1) + 1 by omega, List.replicate_succ,
    mapStr_spec _ _ _ hnn]
  simp only [Res.ok_bind, ← hexText_eq, hlen, Nat.add_zero]
  rw [show k - (Num.D 16 v).length = (k - (Num.D 16 v).length - 1) + 1 by omega, List.replicate_succ]
  rfl

theorem hex_runs (lt : Bool) {lit : Bytes} {v : Nat} (hlit : OkLit lit) (hv : v < 2 ^ 64) : (Piece.hex lit v).Runs lt := by
  refine ⟨⟨_, rfl⟩, hlit, ?_⟩
  intro pre rest k m as hne hm hk
  simp only [Piece.hex] at hm hk ⊢
  show afterLit lt (37 :: 108 :: 108 :: 120 :: rest) _ _ _ (.int v :: as) = _
  unfold afterLit
  simp only [if_true, flag_none (c := 108) {} (by decide), Res.ok_bind, widthPart, if_neg (show ¬ (108 : UInt8) = 42 by decide),
    scan_none lt 108 _ (by decide) (by decide), List.drop_zero]
  have h0 : (0 : Int).bmod (2 ^ 32) = 0 := by decide
  simp only [h0]
  have e : ∀ (info : Info) (as : List Arg), precisionPart lt (108 :: 108 :: 120 :: rest) info as = .ok (108 :: 108 :: 120 :: rest, info, as) := by
    intro i as; simp [precisionPart]
  simp only [e, Res.ok_bind]
  have e : ∀ info : Info, sizePart (108 :: 108 :: 120 :: rest) info = .ok (120 :: rest, { info with size := .llong }) := by
    intro i; simp [sizePart]
  simp only [e, Res.ok_bind]
  have hvv : ((v : Int) % 2 ^ 64).toNat = v := by omega
  have : ∀ info : Info, info.size = .llong → convPart (120 :: rest) (pre ++ List.replicate k 0) pre.length m info (.int v :: as) =
      (printU64 (pre ++ List.replicate k 0) pre.length m { info with base := 16, unsigned := true, lower := true } ((v : Int) % 2 ^ 64).toNat).bind fun (buf, len) =>
        .ok (rest, buf, len, as) := by
    intro info hs
    simp [convPart, intConv, unsignedValue, hs]
    generalize printU64 _ _ _ _ _ = x
    cases x <;> rfl
  rw [this _ rfl, hvv, hex_print hv hm hk rfl rfl rfl rfl rfl rfl]
  rfl

end Verif.Adt
