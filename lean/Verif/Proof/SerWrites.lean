import Verif.Proof.Serialize
import Verif.Props.SerSpec
/-! # Serializers: what is written once there is enough fuel -/
namespace Verif.Ser
open Ast Fmt

def Writes (w : W) (t : Bytes) : Prop := ∀ r, w r = .ok (r ++ t)

/-- `w k` writes `t` for all large enough `k`. -/
def EW (w : Nat → W) (t : Bytes) : Prop := ∃ k0, ∀ k, k0 ≤ k → Writes (w k) t

theorem Prints.ew {e : Env} {f : Fn} {p : Nat} {t : Bytes} (h : Prints e f p t) : EW (fun k => ser e k f p) t := by
  obtain ⟨k0, h0⟩ := h
  exact ⟨k0, fun k hk r => by show ser e k f p r = _; rw [App.ser e k f p r, ser_mono e hk f p _ _ h0]; rfl⟩

/-- The text is unique. -/
theorem Prints.unique {e : Env} {f : Fn} {p : Nat} {t u : Bytes} (h : Prints e f p t) (h' : Prints e f p u) : t = u := by
  obtain ⟨a, ha⟩ := h
  obtain ⟨b, hb⟩ := h'
  have h1 := ser_mono e (Nat.le_max_left a b) f p _ _ ha
  have h2 := ser_mono e (Nat.le_max_right a b) f p _ _ hb
  rw [h1] at h2
  exact Res.ok.inj h2

theorem EW.step {e : Env} {f : Fn} {p : Nat} {t : Bytes} (h : EW (fun k => step e k (ser e k) f p) t) :
    Prints e f p t := by
  obtain ⟨k0, h0⟩ := h
  exact ⟨k0 + 1, h0 k0 (Nat.le_refl _) []⟩

theorem EW.of {w : W} {t : Bytes} (h : Writes w t) : EW (fun _ => w) t := ⟨0, fun _ _ => h⟩

theorem EW.congr {w : Nat → W} {t u : Bytes} (h : EW w t) (he : t = u) : EW w u := he ▸ h

theorem Writes.str (t : Bytes) : Writes (Ser.str t) t := fun _ => rfl
theorem Writes.nop : Writes nop [] := fun r => by simp [Ser.nop]
theorem EW.str (t : Bytes) : EW (fun _ => Ser.str t) t := EW.of (Writes.str t)
theorem EW.nop : EW (fun _ => Ser.nop) [] := EW.of Writes.nop

theorem EW.seq {f g : Nat → W} {a b : Bytes} (hf : EW f a) (hg : EW g b) : EW (fun k => f k ++> g k) (a ++ b) := by
  obtain ⟨k1, h1⟩ := hf
  obtain ⟨k2, h2⟩ := hg
  refine ⟨max k1 k2, fun k hk r => ?_⟩
  show (f k r).bind (g k) = _
  rw [h1 k (by omega) r, Res.ok_bind, h2 k (by omega), List.append_assoc]

theorem EW.reading {α : Type} {x : Res α} {a : α} {k : Nat → α → W} {t : Bytes} (hx : x = .ok a) (h : EW (fun n => k n a) t) :
    EW (fun n => Ser.reading x (k n)) t := by
  obtain ⟨k0, h0⟩ := h
  refine ⟨k0, fun n hn r => ?_⟩
  show x.bind _ = _
  rw [hx]
  exact h0 n hn r

theorem EW.recReading {e : Env} {f : Fn} {p : Nat} {t u : Bytes} {k : Nat → Bytes → W} (hp : Prints e f p t)
    (h : EW (fun n => k n t) u) : EW (fun n => Ser.reading (ser e n f p []) (k n)) u := by
  obtain ⟨k0, h0⟩ := h
  obtain ⟨k1, h1⟩ := hp.ew
  refine ⟨max k0 k1, fun n hn r => ?_⟩
  show (ser e n f p []).bind _ = _
  have := h1 n (by omega) []
  simp only [List.nil_append] at this
  rw [this, Res.ok_bind]
  exact h0 n (by omega) r

theorem EW.sub {e : Env} {f : Fn} {p : Nat} {t u : Bytes} {k : Nat → Arg → W} (hp : Prints e f p t)
    (h : EW (fun n => k n (sbArg t)) u) : EW (fun n => Ser.sub (ser e n) f p (k n)) u :=
  EW.recReading (k := fun n t => k n (sbArg t)) hp h

theorem EW.ifPos {c : Prop} [Decidable c] {f g : Nat → W} {t : Bytes} (hc : c) (h : EW f t) : EW (fun k => if c then f k else g k) t := by
  simpa only [if_pos hc] using h

theorem EW.ifNeg {c : Prop} [Decidable c] {f g : Nat → W} {t : Bytes} (hc : ¬ c) (h : EW g t) : EW (fun k => if c then f k else g k) t := by
  simpa only [if_neg hc] using h

/-- A conditional part. -/
theorem EW.ite {c : Prop} [Decidable c] {f g : Nat → W} {t u : Bytes} (h : c → EW f t) (h' : ¬ c → EW g u) :
    EW (fun k => if c then f k else g k) (if c then t else u) := by
  by_cases hc : c
  · simpa only [if_pos hc] using h hc
  · simpa only [if_neg hc] using h' hc

theorem EW.opt {c : Prop} [Decidable c] {f : Nat → W} {t : Bytes} (h : c → EW f t) : EW (fun k => Ser.opt c (f k)) (ifText c t) := by
  unfold Ser.opt ifText
  exact EW.ite h fun _ => EW.nop

theorem EW.optSlot {s : Nat} {f : Nat → W} {t : Bytes} (h : s ≠ 0 → EW f t) : EW (fun k => Ser.opt (s ≠ 0) (f k)) (optText s t) := by
  refine (EW.opt h).congr ?_
  unfold ifText optText
  by_cases hs : s = 0 <;> simp [hs]

theorem EW.ifSlot {s : Nat} {f g : Nat → W} {t u : Bytes} (h : s ≠ 0 → EW f t) (h' : s = 0 → EW g u) :
    EW (fun k => if s ≠ 0 then f k else g k) (if s = 0 then u else t) := by
  by_cases hs : s = 0
  · simpa only [hs, ne_eq, not_true_eq_false, if_false, if_true] using h' hs
  · simpa only [hs, ne_eq, not_false_eq_true, if_false, if_true] using h hs

theorem Writes.fmt (e : Env) (items : List (Bytes × Conv)) (last : Bytes) {f : Bytes} {as : List Arg} (hf : f ++ [0] = fmtText items last)
    (ha : as = fmtArgs items) (ok : OkFmt items last) (hl : (rendered items last).length < 131070) :
    Writes (e.fmt f as) (rendered items last) := by
  intro r
  unfold Env.fmt Ser.fmt
  rw [hf, ha, C36_fits_partial e.lt items last _ _ ok (by unfold printfMax; omega) (by simp)]
  simp only [Res.ok_bind]
  rw [if_neg (by omega)]
  congr 2
  rw [show ((rendered items last).length + 1 - 1 : Int).toNat = (rendered items last).length by omega, List.take_left]

/-- `%S` of a `Str` as a conversion. -/
def strConv (null : Bool) (t : Bytes) : Conv := if t = [] ∧ null then .nullStr else .str t [0]

theorem strConv_args (null : Bool) (t : Bytes) : (strConv null t).args = [strArg null t] := by
  unfold strConv strArg; split <;> rfl
theorem strConv_text (null : Bool) (t : Bytes) : (strConv null t).text = strText null t := by
  unfold strConv strText; split <;> rfl
theorem strConv_code (null : Bool) (t : Bytes) : (strConv null t).code = b!"%S" := by
  unfold strConv; split <;> rfl
theorem strConv_isS (null : Bool) (t : Bytes) : (strConv null t).isS = true := by
  unfold strConv; split <;> rfl
theorem strConv_ok {null : Bool} {t : Bytes} (h : (0 : UInt8) ∉ strText null t) : (strConv null t).Ok := by
  unfold strConv; split
  · trivial
  · rename_i hn
    unfold strText at h
    rw [if_neg hn] at h
    exact h

/-- The pieces of a format that only uses `%S`, `%SB`, `%.*s` and `%*s`. -/
inductive Piece where
  | lit (l : Bytes)
  | s (null : Bool) (t : Bytes)
  | sb (t : Bytes)
  | len (t : Bytes)
  | width (t : Bytes)

/-- As literals and conversions. -/
def items (acc : Bytes) : List Piece → List (Bytes × Conv) × Bytes
  | [] => ([], acc)
  | .lit l :: r => items (acc ++ l) r
  | .s null t :: r => ((acc, strConv null t) :: (items [] r).1, (items [] r).2)
  | .sb t :: r => ((acc, .sb t [0]) :: (items [] r).1, (items [] r).2)
  | .len t :: r => ((acc, .len t [0]) :: (items [] r).1, (items [] r).2)
  | .width t :: r => ((acc, .width t []) :: (items [] r).1, (items [] r).2)

/-- What they read as. -/
def textOf : List Piece → Bytes
  | [] => []
  | .lit l :: r => l ++ textOf r
  | .s null t :: r => strText null t ++ textOf r
  | .sb t :: r => t ++ textOf r
  | .len t :: r => t ++ textOf r
  | .width t :: r => t ++ textOf r

/-- The format. -/
def formatOf : List Piece → Bytes
  | [] => []
  | .lit l :: r => l ++ formatOf r
  | .s _ _ :: r => b!"%S" ++ formatOf r
  | .sb _ :: r => b!"%SB" ++ formatOf r
  | .len _ :: r => b!"%.*s" ++ formatOf r
  | .width _ :: r => b!"%*s" ++ formatOf r

/-- The arguments. -/
def argsOf : List Piece → List Arg
  | [] => []
  | .lit _ :: r => argsOf r
  | .s null t :: r => strArg null t :: argsOf r
  | .sb t :: r => sbArg t :: argsOf r
  | .len t :: r => .int t.length :: .cstr (some (t ++ [0])) :: argsOf r
  | .width t :: r => .int t.length :: .cstr (some (t ++ [0])) :: argsOf r

/-- No `%` and no NUL in the literals, no `B` after `%S`. -/
def goodPieces : List Piece → Bool
  | [] => true
  | .lit l :: r => l.all (fun c => c != 0 && c != 37) && goodPieces r
  | .s _ _ :: r => (formatOf r).head? != some 66 && goodPieces r
  | .sb _ :: r => goodPieces r
  | .len _ :: r => goodPieces r
  | .width t :: r => !t.isEmpty && goodPieces r

theorem items_fmt : ∀ (ps : List Piece) (acc : Bytes), fmtText (items acc ps).1 (items acc ps).2 = acc ++ (formatOf ps ++ [0])
  | [], acc => by simp [items, formatOf, fmtText]
  | .lit l :: r, acc => by simp [items, formatOf, items_fmt r]
  | .s null t :: r, acc => by simp [items, formatOf, fmtText, items_fmt r, strConv_code]
  | .sb t :: r, acc => by simp [items, formatOf, fmtText, items_fmt r, Conv.code]
  | .len t :: r, acc => by simp [items, formatOf, fmtText, items_fmt r, Conv.code]
  | .width t :: r, acc => by simp [items, formatOf, fmtText, items_fmt r, Conv.code]

theorem items_args : ∀ (ps : List Piece) (acc : Bytes), fmtArgs (items acc ps).1 = argsOf ps
  | [], acc => rfl
  | .lit l :: r, acc => by simp only [items, argsOf]; exact items_args r _
  | .s null t :: r, acc => by have := items_args r []; simp only [fmtArgs] at this ⊢; simp [items, argsOf, strConv_args, this]
  | .sb t :: r, acc => by have := items_args r []; simp only [fmtArgs] at this ⊢; simp only [items, argsOf, List.flatMap_cons, this]; rfl
  | .len t :: r, acc => by have := items_args r []; simp only [fmtArgs] at this ⊢; simp only [items, argsOf, List.flatMap_cons, this]; rfl
  | .width t :: r, acc => by have := items_args r []; simp only [fmtArgs] at this ⊢; simp only [items, argsOf, List.flatMap_cons, this]; rfl

theorem items_text : ∀ (ps : List Piece) (acc : Bytes), rendered (items acc ps).1 (items acc ps).2 = acc ++ textOf ps
  | [], acc => by simp [items, textOf, rendered]
  | .lit l :: r, acc => by simp [items, textOf, items_text r]
  | .s null t :: r, acc => by simp [items, textOf, rendered, items_text r, strConv_text]
  | .sb t :: r, acc => by simp [items, textOf, rendered, items_text r, Conv.text]
  | .len t :: r, acc => by simp [items, textOf, rendered, items_text r, Conv.text]
  | .width t :: r, acc => by simp [items, textOf, rendered, items_text r, Conv.text]

theorem items_ok : ∀ (ps : List Piece) (acc : Bytes), goodPieces ps = true → OkLit acc → Fits (textOf ps) →
    OkFmt (items acc ps).1 (items acc ps).2
  | [], acc, _, h, _ => h
  | .lit l :: r, acc, hg, h, hf => by
    simp only [goodPieces, Bool.and_eq_true, List.all_eq_true, bne_iff_ne, ne_eq] at hg
    refine items_ok r _ hg.2 ⟨?_, ?_⟩ ⟨?_, ?_⟩
    · intro hm; rcases List.mem_append.1 hm with hm | hm
      · exact h.1 hm
      · exact (hg.1 _ hm).1 rfl
    · intro hm; rcases List.mem_append.1 hm with hm | hm
      · exact h.2 hm
      · exact (hg.1 _ hm).2 rfl
    · exact fun hm => hf.1 (List.mem_append_right _ hm)
    · have := hf.2; simp only [textOf, List.length_append] at this; omega
  | .s null t :: r, acc, hg, h, hf => by
    simp only [goodPieces, Bool.and_eq_true, bne_iff_ne, ne_eq] at hg
    refine ⟨h, strConv_ok fun hm => hf.1 (List.mem_append_left _ hm), fun _ => ?_, items_ok r [] hg.2 ⟨by simp, by simp⟩ ⟨?_, ?_⟩⟩
    · show (fmtText (items [] r).1 (items [] r).2).head? ≠ _
      rw [items_fmt, List.nil_append]
      cases hr : formatOf r with
      | nil => simp
      | cons x xs => rw [hr] at hg; simpa using hg.1
    · exact fun hm => hf.1 (List.mem_append_right _ hm)
    · have := hf.2; simp only [textOf, List.length_append] at this; omega
  | .sb t :: r, acc, hg, h, hf => by
    refine ⟨h, fun hm => hf.1 (List.mem_append_left _ hm), fun h => (by cases h), items_ok r [] hg ⟨by simp, by simp⟩ ⟨?_, ?_⟩⟩
    · exact fun hm => hf.1 (List.mem_append_right _ hm)
    · have := hf.2; simp only [textOf, List.length_append] at this; omega
  | .len t :: r, acc, hg, h, hf => by
    have hl := hf.2; simp only [textOf, List.length_append] at hl
    refine ⟨h, ⟨fun hm => hf.1 (List.mem_append_left _ hm), by omega⟩, fun h => (by cases h), items_ok r [] hg ⟨by simp, by simp⟩ ⟨?_, ?_⟩⟩
    · exact fun hm => hf.1 (List.mem_append_right _ hm)
    · omega
  | .width t :: r, acc, hg, h, hf => by
    simp only [goodPieces, Bool.and_eq_true, Bool.not_eq_true', List.isEmpty_eq_false_iff] at hg
    have hl := hf.2; simp only [textOf, List.length_append] at hl
    refine ⟨h, ⟨fun hm => hf.1 (List.mem_append_left _ hm), by omega, hg.1⟩, fun h => (by cases h),
      items_ok r [] hg.2 ⟨by simp, by simp⟩ ⟨?_, ?_⟩⟩
    · exact fun hm => hf.1 (List.mem_append_right _ hm)
    · omega

/-! ## With the condition that the text can be handled -/

theorem Fits.append {a b : Bytes} : Fits (a ++ b) → Fits a ∧ Fits b := by
  intro h
  have := h.2
  simp only [List.length_append] at this
  exact ⟨⟨fun hm => h.1 (List.mem_append_left _ hm), by omega⟩, ⟨fun hm => h.1 (List.mem_append_right _ hm), by omega⟩⟩

/-- If `t` can be handled, it is what is written. -/
def EG (w : Nat → W) (t : Bytes) : Prop := Fits t → EW w t

theorem EG.says {e : Env} {f : Fn} {p : Nat} {t : Bytes} (h : EG (fun k => Ser.step e k (ser e k) f p) t) : Says e f p t :=
  fun hf => (h hf).step

theorem EG.congr {w : Nat → W} {t u : Bytes} (h : EG w t) (he : t = u) : EG w u := he ▸ h

theorem EG.str (t : Bytes) : EG (fun _ => Ser.str t) t := fun _ => EW.str t
theorem EG.nop : EG (fun _ => Ser.nop) [] := fun _ => EW.nop

theorem EG.seq {f g : Nat → W} {a b : Bytes} (hf : EG f a) (hg : EG g b) : EG (fun k => f k ++> g k) (a ++ b) :=
  fun h => (hf h.append.1).seq (hg h.append.2)

theorem EG.reading {α : Type} {x : Res α} {a : α} {k : Nat → α → W} {t : Bytes} (hx : x = .ok a) (h : EG (fun n => k n a) t) :
    EG (fun n => Ser.reading x (k n)) t := fun hf => (h hf).reading hx

theorem EG.recReading {e : Env} {f : Fn} {p : Nat} {t u : Bytes} {k : Nat → Bytes → W} (hp : Prints e f p t)
    (h : EG (fun n => k n t) u) : EG (fun n => Ser.reading (ser e n f p []) (k n)) u := fun hf => EW.recReading hp (h hf)

theorem EG.sub {e : Env} {f : Fn} {p : Nat} {t u : Bytes} {k : Nat → Arg → W} (hp : Prints e f p t)
    (h : EG (fun n => k n (sbArg t)) u) : EG (fun n => Ser.sub (ser e n) f p (k n)) u := fun hf => EW.sub hp (h hf)

theorem EG.ite {c : Prop} [Decidable c] {f g : Nat → W} {t u : Bytes} (h : c → EG f t) (h' : ¬ c → EG g u) :
    EG (fun k => if c then f k else g k) (if c then t else u) := by
  intro hf
  by_cases hc : c
  · simp only [if_pos hc] at hf ⊢; exact h hc hf
  · simp only [if_neg hc] at hf ⊢; exact h' hc hf

theorem EG.ifPos {c : Prop} [Decidable c] {f g : Nat → W} {t : Bytes} (hc : c) (h : EG f t) : EG (fun k => if c then f k else g k) t :=
  fun hf => EW.ifPos hc (h hf)

theorem EG.ifNeg {c : Prop} [Decidable c] {f g : Nat → W} {t : Bytes} (hc : ¬ c) (h : EG g t) : EG (fun k => if c then f k else g k) t :=
  fun hf => EW.ifNeg hc (h hf)

theorem EG.opt {c : Prop} [Decidable c] {f : Nat → W} {t : Bytes} (h : c → EG f t) : EG (fun k => Ser.opt c (f k)) (ifText c t) := by
  unfold Ser.opt ifText
  exact EG.ite h fun _ => EG.nop

theorem EG.optSlot {s : Nat} {f : Nat → W} {t : Bytes} (h : s ≠ 0 → EG f t) : EG (fun k => Ser.opt (s ≠ 0) (f k)) (optText s t) := by
  refine (EG.opt h).congr ?_
  unfold ifText optText
  by_cases hs : s = 0 <;> simp [hs]

theorem EG.ifSlot {s : Nat} {f g : Nat → W} {t u : Bytes} (h : s ≠ 0 → EG f t) (h' : s = 0 → EG g u) :
    EG (fun k => if s ≠ 0 then f k else g k) (if s = 0 then u else t) := by
  refine (EG.ite h fun hn => h' (Decidable.not_not.1 hn)).congr ?_
  by_cases hs : s = 0 <;> simp [hs]

/-- A call of `strbuilder_append_fmt`, given by its pieces. -/
theorem EG.fmt (e : Env) (ps : List Piece) {f : Bytes} {as : List Arg} (hf : f = formatOf ps) (ha : as = argsOf ps)
    (hg : goodPieces ps = true) : EG (fun _ => e.fmt f as) (textOf ps) := by
  intro h
  have h1 := items_text ps []
  have := Writes.fmt e (items [] ps).1 (items [] ps).2 (f := f) (as := as) (by rw [items_fmt, hf]; simp) (by rw [items_args, ha])
    (items_ok ps [] hg ⟨by simp, by simp⟩ h) (by rw [h1]; exact h.2)
  rw [h1] at this
  exact EW.of this

/-- A call with more arguments than the format asks for. -/
theorem EG.fmtExtra (e : Env) (ps : List Piece) (extra : List Arg) {f : Bytes} {as : List Arg} (hf : f = formatOf ps) (ha : as = argsOf ps ++ extra)
    (hg : goodPieces ps = true) : EG (fun _ => e.fmt f as) (textOf ps) := by
  intro h
  have h1 := items_text ps []
  have hok := items_ok ps [] hg ⟨by simp, by simp⟩ h
  have hl : (rendered (items [] ps).1 (items [] ps).2).length < 131070 := by rw [h1]; exact h.2
  have hw := Writes.fmt e (items [] ps).1 (items [] ps).2 (f := f) (as := argsOf ps) (by rw [items_fmt, hf]; simp) (by rw [items_args]) hok hl
  rw [h1] at hw
  refine EW.of fun r => ?_
  have hx := C36_extra_args_partial e.lt (items [] ps).1 (items [] ps).2 (List.replicate printfMax 0) (printfMax - 1) extra hok (by decide)
    (by rw [placed_all _ _ _ (by unfold printfMax; omega)]; simp; unfold printfMax; omega)
  rw [items_fmt, items_args] at hx
  have := hw r
  unfold Env.fmt Ser.fmt at this ⊢
  simp only [List.nil_append, ← hf] at hx
  rw [ha, hx]
  exact this

/-- A call with a wrong argument for `%SB`. -/
theorem fmt_ub (e : Env) (l last rest : Bytes) (c : Conv) (bad : List Arg) {f : Bytes} {as : List Arg} (hf : f = l ++ (c.code ++ (last ++ (b!"%SB" ++ rest))))
    (ha : as = c.args ++ bad) (hl : OkLit l) (hlast : OkLit last) (hc : c.Ok) (hB : c.isS → last.head? ≠ some 66)
    (hb : l.length + c.text.length + last.length ≤ 131072) (h : ∀ d n as', bad ≠ .sb d n :: as') (r : Bytes) :
    e.fmt f as r = .ub := by
  have := C36_wrong_argument e.lt l last (rest ++ [0]) (List.replicate printfMax 0) c (printfMax - 1) bad hl hlast hc hB (by decide)
    (by rw [List.length_replicate]; exact hb) h
  unfold Env.fmt Ser.fmt
  rw [hf, ha]
  simp only [List.append_assoc, List.cons_append, List.nil_append] at this ⊢
  rw [this]
  rfl

/-! ## The parts the serializers share -/

theorem EG.each {α : Type} {k : α → W} {f : α → Bytes} (h : ∀ a, EG (fun _ => k a) (f a)) : ∀ l, EG (fun _ => Ser.each k l) (l.flatMap f)
  | [] => EG.nop
  | a :: as => by
    rw [List.flatMap_cons]
    exact EG.seq (h a) (EG.each h as)

theorem EG.chain (e : Env) (f before after : Bytes) (fn : Fn) (hf : f = before ++ (b!"%SB" ++ after))
    (h1 : (before.all fun c => c != 0 && c != 37) = true) (h2 : (after.all fun c => c != 0 && c != 37) = true) :
    ∀ (l : List Nat) (ts : List Bytes) (p : Nat), Linked e.h p l → PrintAll e fn l ts →
    EG (fun k => Ser.chain e (ser e k) f fn k p) (wrapped before after ts) := by
  -- the fuel of the loop and that of the calls are counted separately
  have main : ∀ (l : List Nat) (ts : List Bytes) (p : Nat), Linked e.h p l → PrintAll e fn l ts → Fits (wrapped before after ts) →
      ∃ k0, ∀ k, k0 ≤ k → ∀ m, l.length < m → Writes (Ser.chain e (ser e k) f fn m p) (wrapped before after ts) := by
    intro l
    induction l with
    | nil =>
      intro ts p hl hp hfit
      cases ts with
      | cons => exact hp.elim
      | nil =>
        refine ⟨0, fun k _ m hm => ?_⟩
        obtain ⟨m, rfl⟩ : ∃ j, m = j + 1 := ⟨m - 1, by simp at hm; omega⟩
        unfold Ser.chain
        rw [if_pos (show p = 0 from hl)]
        exact Writes.nop
    | cons q l ih =>
      intro ts p hl hp hfit
      cases ts with
      | nil => exact hp.elim
      | cons t ts =>
        obtain ⟨rfl, hv, hl⟩ := hl
        obtain ⟨hpt, hp⟩ := hp
        have hfit' : Fits (textOf [.lit before, .sb t, .lit after] ++ wrapped before after ts) := by
          have : wrapped before after (t :: ts) = textOf [.lit before, .sb t, .lit after] ++ wrapped before after ts := by
            simp [wrapped, textOf]
          rwa [this] at hfit
        obtain ⟨k1, hk1⟩ := ih ts _ hl hp hfit'.append.2
        obtain ⟨k2, hk2⟩ := EG.sub (k := fun _ a => e.fmt f [a]) hpt
          (EG.fmt e [.lit before, .sb t, .lit after] (by simp [formatOf, hf]) rfl (by simp [goodPieces, h1, h2])) hfit'.append.1
        refine ⟨max k1 k2, fun k hk m hm => ?_⟩
        simp only [List.length_cons] at hm
        obtain ⟨m, rfl⟩ : ∃ j, m = j + 1 := ⟨m - 1, by omega⟩
        intro r
        unfold Ser.chain
        rw [if_neg (by have := hv.1; omega)]
        show ((Ser.sub (ser e k) fn p fun a => e.fmt f [a]) r).bind _ = _
        have hw : (Ser.sub (ser e k) fn p fun a => e.fmt f [a]) r = _ := hk2 k (by omega) r
        rw [hw, Res.ok_bind]
        show (e.h.get p).bind _ = _
        rw [get_ok hv, Res.ok_bind]
        refine (hk1 k (by omega) m (by omega) _).trans ?_
        simp [wrapped, textOf]
  intro l ts p hl hp hfit
  obtain ⟨k0, h0⟩ := main l ts p hl hp hfit
  exact ⟨max k0 (l.length + 1), fun k hk => h0 k (by omega) k (by omega)⟩

theorem EW.bodyLoop (e : Env) : ∀ (l : List Nat) (ts : List Bytes) (p : Nat), Chain e.h p l → PrintAll e .code l ts →
    EW (fun k => Ser.bodyLoop e (ser e k) l.length p) ts.flatten
  | [], [], _, _, _ => EW.nop
  | [], _ :: _, _, _, h => h.elim
  | _ :: _, [], _, _, h => h.elim
  | q :: l, t :: ts, p, hc, hp => by
    obtain ⟨rfl, hv, hc⟩ := hc
    obtain ⟨k1, h1⟩ := EW.bodyLoop e l ts _ hc hp.2
    obtain ⟨k2, h2⟩ := hp.1.ew
    refine ⟨max k1 k2, fun k hk r => ?_⟩
    show (ser e k .code p r).bind _ = _
    have hw : ser e k .code p r = _ := h2 k (by omega) r
    rw [hw, Res.ok_bind]
    show (if p = 0 then _ else (e.h.get p).bind _) = _
    rw [if_neg (by have := hv.1; omega), get_ok hv, Res.ok_bind]
    refine (h1 k (by omega) _).trans ?_
    simp

theorem EG.exportPrefix (n : Node) : EG (fun _ => exportPrefix n) (exportText n) := EG.opt fun _ => EG.str _

theorem EG.attrs (e : Env) (before after : Bytes) {f : Bytes} {p : Nat} (hv : e.h.Valid p) (hf : f = before ++ (b!"%SB" ++ after))
    (h1 : (before.all fun c => c != 0 && c != 37) = true) (h2 : (after.all fun c => c != 0 && c != 37) = true) :
    EG (fun _ => attrs e f p) (before ++ (e.h.cell p).content ++ after) := by
  refine EG.reading (get_ok hv) ((EG.fmt e [.lit before, .sb _, .lit after] (by simp [formatOf, hf]) rfl (by simp [goodPieces, h1, h2])).congr ?_)
  simp [textOf]

theorem EG.attrText (e : Env) (n : Node) (hs : Slot e n.attributes) :
    EG (fun _ => Ser.opt (n.attributes ≠ 0) (Ser.attrs e b!"%SB " n.attributes)) (attrText e n) :=
  EG.optSlot fun h => (EG.attrs e [] b!" " (hs h) rfl rfl rfl).congr (by simp)

theorem EG.cmt (e : Env) (before after : Bytes) {f : Bytes} {p : Nat} (hv : e.h.Valid p) (hf : f = before ++ (b!"%S" ++ after))
    (h1 : (before.all fun c => c != 0 && c != 37) = true) (h2 : (after.all fun c => c != 0 && c != 37) = true)
    (h3 : after.head? ≠ some 66) : EG (fun _ => e.cmt f p) (before ++ contentText e p ++ after) := by
  refine EG.reading (get_ok hv) ((EG.fmt e [.lit before, .s _ _, .lit after] (by simp [formatOf, hf]) rfl
    (by simp [goodPieces, h1, h2, formatOf, h3])).congr ?_)
  simp [textOf, contentText]

/-- `if ( self->InlineCmt ) ... else ...` -/
theorem EG.cmtText (e : Env) (n : Node) (before after plain : Bytes) {f : Bytes} (hs : Slot e n.inlineCmt)
    (hf : f = before ++ (b!"%S" ++ after)) (h1 : (before.all fun c => c != 0 && c != 37) = true)
    (h2 : (after.all fun c => c != 0 && c != 37) = true) (h3 : after.head? ≠ some 66) :
    EG (fun _ => if n.inlineCmt ≠ 0 then e.cmt f n.inlineCmt else Ser.str plain) (cmtText e n before after plain) :=
  EG.ifSlot (fun h => EG.cmt e before after (hs h) hf h1 h2 h3) fun _ => EG.str _

/-- `if ( self->InlineCmt ) ...` -/
theorem EG.cmtOpt (e : Env) (n : Node) (before after : Bytes) {f : Bytes} (hs : Slot e n.inlineCmt)
    (hf : f = before ++ (b!"%S" ++ after)) (h1 : (before.all fun c => c != 0 && c != 37) = true)
    (h2 : (after.all fun c => c != 0 && c != 37) = true) (h3 : after.head? ≠ some 66) :
    EG (fun _ => Ser.opt (n.inlineCmt ≠ 0) (e.cmt f n.inlineCmt)) (Ser.cmtText e n before after []) :=
  EG.optSlot fun h => EG.cmt e before after (hs h) hf h1 h2 h3

theorem EG.endStmt (e : Env) (n : Node) (hs : Slot e n.parent) {w : Nat → W} {t : Bytes} (h : EG w t) :
    EG (fun k => endStmt e n (w k)) (endText e n t) := by
  unfold Ser.endStmt endText
  by_cases hp : n.parent = 0
  · simp only [hp, if_true, ne_eq, not_true_eq_false, false_and, if_false]; exact h
  · simp only [hp, if_false, ne_eq, not_false_eq_true, true_and]
    refine EG.reading (get_ok (hs hp)) ?_
    refine (EG.ite (fun _ => h) fun _ => EG.nop).congr ?_
    by_cases h1 : (e.h.cell n.parent).type = .Typedef <;> by_cases h2 : (e.h.cell n.parent).type = .Variable <;> simp [h1, h2]

theorem specList_ok {e : Env} {p : Nat} {l : List Specifier} (h : SpecSlot e p l) : specList e p = .ok l := by
  unfold SpecSlot at h
  unfold specList
  split at h <;> rename_i hp
  · rw [if_pos hp, h]
  · rw [if_neg hp, C20_iteration h]

theorem hasSpec_ok {e : Env} {p : Nat} {l : List Specifier} (h : SpecSlot e p l) (s : Specifier) : hasSpec e p s = .ok (decide (s ∈ l)) := by
  unfold SpecSlot at h
  unfold hasSpec
  split at h <;> rename_i hp
  · rw [if_pos hp, h]; simp
  · rw [if_neg hp, C20_has h]

theorem EG.specLen (e : Env) (s : Specifier) : EG (fun _ => Ser.specLen e s) (b!" " ++ specToStr s) :=
  (EG.fmt e [.lit b!" ", .len (specToStr s)] rfl rfl rfl).congr (by simp [textOf])

theorem spec_ne (s : Specifier) : (specToStr s).isEmpty = false := by cases s <;> rfl

theorem EG.specWidth (e : Env) (s : Specifier) : EG (fun _ => Ser.specWidth e s) (specToStr s ++ b!" ") :=
  (EG.fmt e [.width (specToStr s), .lit b!" "] rfl rfl (by simp [goodPieces, spec_ne])).congr (by simp [textOf])

theorem EG.specWidthTail (e : Env) (s : Specifier) : EG (fun _ => Ser.specWidthTail e s) (b!" " ++ specToStr s) :=
  (EG.fmt e [.lit b!" ", .width (specToStr s)] rfl rfl (by simp [goodPieces, spec_ne])).congr (by simp [textOf])

theorem EG.spaced (e : Env) (l : List Specifier) : EG (fun _ => Ser.each (Ser.specLen e) l) (spaced l) :=
  EG.each (EG.specLen e) l

theorem spec_clean (s : Specifier) : (0 : UInt8) ∉ specToStr s := by cases s <;> decide

theorem specsText_zip (l : List Specifier) :
    specsText l = (l.zipIdx.flatMap fun i : Specifier × Nat =>
      ifText (i.2 > 0 ∧ i.1 ≠ .Ptr ∧ i.1 ≠ .Ref ∧ i.1 ≠ .RValue) b!" " ++ specToStr i.1) ++ b!" " := by
  cases l with
  | nil => rfl
  | cons s l =>
    have key : ∀ (l : List Specifier) (j : Nat), ((l.zipIdx (j + 1)).flatMap fun i : Specifier × Nat =>
        ifText (i.2 > 0 ∧ i.1 ≠ .Ptr ∧ i.1 ≠ .Ref ∧ i.1 ≠ .RValue) b!" " ++ specToStr i.1) =
        l.flatMap fun s => (if s = .Ptr ∨ s = .Ref ∨ s = .RValue then [] else b!" ") ++ specToStr s := by
      intro l
      induction l with
      | nil => intro j; rfl
      | cons s l ih =>
        intro j
        rw [List.zipIdx_cons, List.flatMap_cons, List.flatMap_cons, ih]
        congr 2
        unfold ifText
        by_cases h1 : s = .Ptr <;> by_cases h2 : s = .Ref <;> by_cases h3 : s = .RValue <;> simp [h1, h2, h3]
    rw [List.zipIdx_cons, List.flatMap_cons, key]
    simp [specsText, ifText]

theorem EG.specifiersRef (e : Env) {p : Nat} {l : List Specifier} (h : IsSpecs e.h p l) : EG (fun _ => Ser.specifiersRef e p) (specsText l) := by
  unfold Ser.specifiersRef
  rw [specsText_zip]
  have one : ∀ i : Specifier × Nat, EG (fun _ =>
      Ser.opt (i.2 > 0 ∧ i.1 ≠ .Ptr ∧ i.1 ≠ .Ref ∧ i.1 ≠ .RValue) (Ser.str b!" ") ++>
      e.fmt b!"%S" [.str (some (specToStr i.1 ++ [0])) (specToStr i.1).length])
      (ifText (i.2 > 0 ∧ i.1 ≠ .Ptr ∧ i.1 ≠ .Ref ∧ i.1 ≠ .RValue) b!" " ++ specToStr i.1) := by
    intro i
    refine EG.seq (EG.opt fun _ => EG.str _) ?_
    exact (EG.fmt e [.s false (specToStr i.1)] rfl (by simp [argsOf, strArg]) rfl).congr (by simp [textOf, strText])
  exact EG.reading (Res.assert_true (Nat.ne_of_gt h.valid.1)) (EG.reading (get_ok h.valid) (EG.ifNeg (by rw [h.count]; omega)
    (EG.reading (C20_iteration h) (EG.seq (EG.each one _) (EG.str _)))))

theorem EG.subSpecs (e : Env) {p : Nat} {l : List Specifier} (h : IsSpecs e.h p l) {k : Nat → Arg → W} {u : Bytes}
    (hf : Fits (specsText l)) (hk : EG (fun n => k n (sbArg (specsText l))) u) : EG (fun n => Ser.subSpecs e p (k n)) u := by
  obtain ⟨k0, h0⟩ := EG.specifiersRef e h hf
  exact EG.reading (by have := h0 k0 (Nat.le_refl _) []; simpa using this) hk

theorem specs_fit {h : Heap} {p : Nat} {l : List Specifier} (hs : IsSpecs h p l) : Fits (specsText l) := by
  have hlen : ∀ s : Specifier, (specToStr s).length ≤ 30 := by intro s; cases s <;> decide
  have key : ∀ l : List Specifier, (0 : UInt8) ∉ (l.flatMap fun s => (if s = .Ptr ∨ s = .Ref ∨ s = .RValue then [] else b!" ") ++ specToStr s) ∧
      (l.flatMap fun s => (if s = .Ptr ∨ s = .Ref ∨ s = .RValue then [] else b!" ") ++ specToStr s).length ≤ 31 * l.length := by
    intro l
    induction l with
    | nil => simp
    | cons s l ih =>
      constructor
      · rw [List.flatMap_cons]
        intro hm
        rcases List.mem_append.1 hm with hm | hm
        · rcases List.mem_append.1 hm with hm | hm
          · split at hm <;> simp at hm
          · exact spec_clean s hm
        · exact ih.1 hm
      · rw [List.flatMap_cons, List.length_append, List.length_append, List.length_cons]
        have := hlen s
        have : (if s = .Ptr ∨ s = .Ref ∨ s = .RValue then ([] : Bytes) else b!" ").length ≤ 1 := by split <;> simp
        have := ih.2
        omega
  have hcap := hs.fits
  rw [cap_eq] at hcap
  cases l with
  | nil => exact ⟨by decide, by decide⟩
  | cons s l =>
    have h1 := key l
    have h2 := hlen s
    simp only [List.length_cons] at hcap
    constructor
    · intro hm
      rcases List.mem_append.1 hm with hm | hm
      · rcases List.mem_append.1 hm with hm | hm
        · exact spec_clean s hm
        · exact h1.1 hm
      · simp at hm
    · simp only [specsText, List.length_append, List.length_cons, List.length_nil]
      omega

end Verif.Ser
