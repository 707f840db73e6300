import Verif.Props.Printing
/-!
# C36: repeated characters

`%r` writes the character of its argument once, `%*r` as often as the argument in front of it says.
-/
namespace Verif.Fmt

theorem repeatLoop_spec (c : UInt8) : ∀ (k : Nat) (pre tl : Bytes), k ≤ tl.length →
    repeatLoop c k (pre ++ tl) pre.length = .ok (pre ++ (List.replicate k c ++ tl.drop k))
  | 0, pre, tl, _ => by simp [repeatLoop]
  | k + 1, pre, [], h => by simp at h
  | k + 1, pre, x :: tl, h => by
    unfold repeatLoop Num.put
    rw [if_pos (by simp)]
    have e : (pre ++ x :: tl).set pre.length c = (pre ++ [c]) ++ tl := by simp
    have e2 : pre.length + 1 = (pre ++ [c]).length := by simp
    simp only [Res.ok_bind]
    rw [e, e2, repeatLoop_spec c k (pre ++ [c]) tl (by simpa using h)]
    simp [List.replicate_succ]

/-- Without a width the character is written once. -/
theorem C36_one_char_partial (lt : Bool) (l last buf : Bytes) (c : UInt8) (items : List (Bytes × Conv)) (max : Nat) (hl : OkLit l)
    (ho : OkFmt items last) (h : l.length + 1 + (rendered items last).length + 1 < max) (hb : max ≤ buf.length) :
    ∃ tail, cStrFmt lt buf max (l ++ (b!"%r" ++ fmtText items last)) (.int c.toNat :: fmtArgs items) =
      .ok (l ++ [c] ++ rendered items last ++ 0 :: tail, ((l ++ [c] ++ rendered items last).length : Int) + 1) := by
  have hc : c.toNat < 256 := c.toNat_lt
  have hu : UInt8.ofNat ((c.toNat : Int) % 256).toNat = c := by
    rw [show ((c.toNat : Int) % 256).toNat = c.toNat by omega]
    simp
  have hp : repeatLoop c 1 (l ++ buf.drop l.length) l.length = _ := repeatLoop_spec c 1 l (buf.drop l.length) (by simp; omega)
  refine ⟨_, one_conv lt l b!"%r" [c] ((buf.drop l.length).drop 1) last buf [.int c.toNat] items max hl rfl (by omega) ho h ?_ ?_⟩
  · simp; omega
  · have hpr : precisionPart lt (114 :: fmtText items last) {} (.int c.toNat :: fmtArgs items) = .ok (114 :: fmtText items last, {}, .int c.toNat :: fmtArgs items) := by
      simp [precisionPart]
    have hsz : sizePart (114 :: fmtText items last) {} = .ok (114 :: fmtText items last, {}) := by simp [sizePart]
    have := afterLit_parts lt (buf := l ++ buf.drop l.length) (pos := l.length) (rem := max)
      (flag_none (c := 114) (cs := fmtText items last) {} (by decide)) (width_none lt (as := .int c.toNat :: fmtArgs items) (by decide) (by decide) (by decide)) hpr hsz
    refine Eq.trans this ?_
    have hcv : convPart (114 :: fmtText items last) (l ++ buf.drop l.length) l.length max {} (.int c.toNat :: fmtArgs items) =
        .ok (fmtText items last, l ++ ([c] ++ (buf.drop l.length).drop 1), 1, fmtArgs items) := by
      simp [convPart, takeInt, bmod_int (show -(2 ^ 31) ≤ (c.toNat : Int) by omega) (by omega), printRepeated, -Int.toNat_emod, hu, hp]
    rw [hcv]
    rfl

/-- With a width it is written that often, whatever stands behind it. -/
theorem C36_repeat_partial (lt : Bool) (l last buf : Bytes) (c : UInt8) (n : Nat) (items : List (Bytes × Conv)) (max : Nat) (hl : OkLit l)
    (hn : 0 < n) (ho : OkFmt items last) (h : l.length + n + (rendered items last).length + 1 < max) (hb : max ≤ buf.length) (hm : n < 2 ^ 31) :
    ∃ tail, cStrFmt lt buf max (l ++ (b!"%*r" ++ fmtText items last)) (.int n :: .int c.toNat :: fmtArgs items) =
      .ok (l ++ List.replicate n c ++ rendered items last ++ 0 :: tail, ((l ++ List.replicate n c ++ rendered items last).length : Int) + 1) := by
  have hc : c.toNat < 256 := c.toNat_lt
  have hu : UInt8.ofNat ((c.toNat : Int) % 256).toNat = c := by
    rw [show ((c.toNat : Int) % 256).toNat = c.toNat by omega]
    simp
  have hp := repeatLoop_spec c n l (buf.drop l.length) (by simp; omega)
  refine ⟨_, one_conv lt l b!"%*r" (List.replicate n c) ((buf.drop l.length).drop n) last buf [.int n, .int c.toNat] items max hl rfl (by omega) ho
    (by simpa using h) ?_ ?_⟩
  · simp; omega
  · have hwd : widthPart lt (42 :: 114 :: fmtText items last) {} (.int n :: .int c.toNat :: fmtArgs items) =
        .ok (114 :: fmtText items last, { width := n, widthFlag := true }, .int c.toNat :: fmtArgs items) :=
      width_star lt (Int.natCast_nonneg n) (len31 n) (len31' hm)
    have hpr : precisionPart lt (114 :: fmtText items last) { width := n, widthFlag := true } (.int c.toNat :: fmtArgs items) =
        .ok (114 :: fmtText items last, { width := n, widthFlag := true }, .int c.toNat :: fmtArgs items) := by
      simp [precisionPart]
    have hsz : sizePart (114 :: fmtText items last) { width := n, widthFlag := true } =
        .ok (114 :: fmtText items last, { width := n, widthFlag := true }) := by simp [sizePart]
    have := afterLit_parts lt (buf := l ++ buf.drop l.length) (pos := l.length) (rem := max)
      (flag_none (c := 42) (cs := 114 :: fmtText items last) {} (by decide)) hwd hpr hsz
    refine Eq.trans this ?_
    have hcv : convPart (114 :: fmtText items last) (l ++ buf.drop l.length) l.length max { width := n, widthFlag := true } (.int c.toNat :: fmtArgs items) =
        .ok (fmtText items last, l ++ (List.replicate n c ++ (buf.drop l.length).drop n), n, fmtArgs items) := by
      simp [convPart, takeInt, bmod_int (show -(2 ^ 31) ≤ (c.toNat : Int) by omega) (by omega), printRepeated, -Int.toNat_emod, hn, hu, hp]
    rw [hcv]
    simp

/-- A rule of twenty dashes behind a comment mark. -/
example : ∃ tail, cStrFmt true (List.replicate 64 7) 64 b!"// %*r\n\x00" [.int 20, .int 45] = .ok (b!"// --------------------\n" ++ 0 :: tail, 25) :=
  C36_repeat_partial true b!"// " b!"\n" (List.replicate 64 7) 45 20 [] 64 ⟨by decide, by decide⟩ (by decide) ⟨by decide, by decide⟩ (by decide) (by decide) (by decide)

end Verif.Fmt
