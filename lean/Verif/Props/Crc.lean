import Verif.Proof.CrcInj
import Verif.Model.Keywords
/-!
# Properties C13 (CRC hashes) and C25 (keyword recognition)
-/
namespace Verif.Crc

/-- Specification: the bits of a message in transmission order of a reflected CRC: bytes in order, least significant bit
first. -/
def messageBits (data : Bytes) : List Bool := data.flatMap fun b => (List.range 8).map fun i => b.toBitVec.getLsbD i

/-- Specification: bit-at-a-time reflected CRC division by the polynomial `p` (reflected, top coefficient implicit): shift
one message bit in; if the bit shifted out differs from the message bit, subtract (xor) the polynomial. -/
def bitwiseCrc {n : Nat} (p : BitVec n) : BitVec n → List Bool → BitVec n
  | r, [] => r
  | r, b :: bs => bitwiseCrc p (if r.getLsbD 0 != b then (r >>> 1) ^^^ p else r >>> 1) bs

theorem bitwiseCrc_eq_feed {n} (p : BitVec n) (r : BitVec n) (bs : List Bool) : bitwiseCrc p r bs = feed p r bs := by
  induction bs generalizing r with
  | nil => rfl
  | cons b bs ih => simp [bitwiseCrc, feed, ih]

/-- C13: for every byte string, `crc32` (table driven) is the bit-at-a-time CRC with polynomial 0xEDB88320, initial value
all ones, complemented at the end. -/
theorem C13_crc32 (data : Bytes) :
    crc32 data = ~~~ bitwiseCrc 0xEDB88320#32 (~~~ 0#32) (messageBits data) := by
  unfold crc32
  congr 1
  generalize (~~~ 0#32) = r
  induction data generalizing r with
  | nil => rfl
  | cons b data ih =>
    have hm : messageBits (b :: data) = ((List.range 8).map fun i => b.toBitVec.getLsbD i) ++ messageBits data := rfl
    rw [List.foldl_cons, ih, hm, bitwiseCrc_eq_feed, bitwiseCrc_eq_feed, feed_append]
    rw [step32_eq, byte_feed (by omega)]

/-- C13: for every byte string, `crc64` is the bit-at-a-time CRC with polynomial 0x95AC9329AC4BC9B5 and initial value 0. -/
theorem C13_crc64 (data : Bytes) :
    crc64 data = bitwiseCrc 0x95AC9329AC4BC9B5#64 0#64 (messageBits data) := by
  unfold crc64
  generalize 0#64 = r
  induction data generalizing r with
  | nil => rfl
  | cons b data ih =>
    have hm : messageBits (b :: data) = ((List.range 8).map fun i => b.toBitVec.getLsbD i) ++ messageBits data := rfl
    rw [List.foldl_cons, ih, hm, bitwiseCrc_eq_feed, bitwiseCrc_eq_feed, feed_append]
    rw [step64_eq, byte_feed (by omega)]

/-- C13 (and C14, C24, C25): two strings of the same length that differ only inside some window of at most four
consecutive bytes never have the same `crc32`: such strings are never conflated by the tables keyed with it. -/
theorem C13_burst_detected (pre w w' suf : Bytes) (hl : w.length = w'.length) (h4 : w.length ≤ 4) (hne : w ≠ w') :
    crc32 (pre ++ w ++ suf) ≠ crc32 (pre ++ w' ++ suf) := by
  intro h
  unfold crc32 at h
  have h := BitVec.not_inj.mp h
  simp only [List.foldl_append] at h
  exact hne (window_inj w w' hl h4 _ (foldl_inj suf _ _ h))

/-- C13, refuted as a fingerprint: distinct strings can have the same `crc32`. -/
theorem C13_injective_refuted : crc32 b!"plumless" = crc32 b!"buckeroo" := by decide +kernel

/-- Non-vacuity: the standard check value of CRC-32. -/
example : crc32 b!"123456789" = 0xCBF43926#32 := by decide +kernel

end Verif.Crc

namespace Verif

theorem Specifier.mem_all (s : Specifier) : s ∈ Specifier.all := by cases s <;> decide
theorem TokType.mem_all (t : TokType) : t ∈ TokType.all := by cases t <;> decide

theorem searchKeymap_spec {ε : Type} (sp : ε → Bytes) (d : ε) (h : BitVec 32) (l : List ε) :
    (Crc.crc32 (sp (searchKeymap sp d h l)) = h ∧ searchKeymap sp d h l ∈ l) ∨
    ((∀ e ∈ l, Crc.crc32 (sp e) ≠ h) ∧ searchKeymap sp d h l = d) := by
  induction l with
  | nil => right; exact ⟨by simp, rfl⟩
  | cons e l ih =>
    by_cases he : Crc.crc32 (sp e) = h
    · left; simp [searchKeymap, he]
    · simp only [searchKeymap, he, if_false]
      rcases ih with ih | ih
      · left; exact ⟨ih.1, List.mem_cons_of_mem _ ih.2⟩
      · right
        refine ⟨fun x hx => ?_, ih.2⟩
        rcases List.mem_cons.mp hx with rfl | hx
        · exact he
        · exact ih.1 x hx

/-- C25: every specifier spelling is recognised as its own specifier. -/
theorem C25_specifier_spellings (s : Specifier) : strToSpecifier (specToStr s) = s := by
  have h : ∀ s ∈ Specifier.all, strToSpecifier (specToStr s) = s := by decide +kernel
  exact h s (Specifier.mem_all s)

/-- C25: every token spelling is recognised as its own token type, except the specifier spelling `extern`, which is
always taken for the linkage declaration (`Spec_Extern` is never produced). -/
theorem C25_toktype_spellings (t : TokType) :
    strToTokType (toktypeToStr t) = if t = .Spec_Extern then .Decl_Extern_Linkage else t := by
  have h : ∀ t ∈ TokType.all, strToTokType (toktypeToStr t) = if t = .Spec_Extern then .Decl_Extern_Linkage else t := by
    decide +kernel
  exact h t (TokType.mem_all t)

/-- The C++ specifier keywords (and the markers `*`, `&`, `&&`, `= 0`, `= delete`) and the enumerator each should give. -/
def specifierKeywords : List (Bytes × Specifier) := [
  (b!"consteval", .Consteval), (b!"constexpr", .Constexpr), (b!"constinit", .Constinit), (b!"explicit", .Explicit),
  (b!"extern", .External_Linkage), (b!"inline", .Inline), (b!"mutable", .Mutable), (b!"*", .Ptr), (b!"&", .Ref),
  (b!"register", .Register), (b!"restrict", .Restrict), (b!"&&", .RValue), (b!"static", .Static), (b!"thread_local", .Thread_Local),
  (b!"virtual", .Virtual), (b!"const", .Const), (b!"final", .Final), (b!"noexcept", .NoExceptions), (b!"override", .Override),
  (b!"= 0", .Pure), (b!"= delete", .Delete), (b!"volatile", .Volatile),
  /- gencpp's own -/
  (b!"forceinline", .ForceInline), (b!"global", .Global), (b!"internal", .Internal_Linkage), (b!"local_persist", .Local_Persist),
  (b!"neverinline", .NeverInline)]

/-- C25: each of these words is recognised as, and is printed for, its specifier. -/
theorem C25_specifier_keywords : ∀ p ∈ specifierKeywords, strToSpecifier p.1 = p.2 ∧ specToStr p.2 = p.1 := by decide +kernel

/-- C25: the specifiers written after the parameter list of a function are exactly these (`&` and `&&` are not among them). -/
theorem C25_trailing : ∀ s : Specifier, specIsTrailing s = true ↔
    specToStr s ∈ [b!"const", b!"volatile", b!"final", b!"override", b!"noexcept", b!"= 0", b!"= delete"] := by
  have h : ∀ s ∈ Specifier.all, (specIsTrailing s = true ↔
    specToStr s ∈ [b!"const", b!"volatile", b!"final", b!"override", b!"noexcept", b!"= 0", b!"= delete"]) := by decide +kernel
  exact fun s => h s (Specifier.mem_all s)

/-- The keywords the lexer must tell apart, with the token type of each. -/
def tokenKeywords : List (Bytes × TokType) := [
  (b!"class", .Decl_Class), (b!"enum", .Decl_Enum), (b!"friend", .Decl_Friend), (b!"namespace", .Decl_Namespace),
  (b!"operator", .Decl_Operator), (b!"struct", .Decl_Struct), (b!"template", .Decl_Template), (b!"typedef", .Decl_Typedef),
  (b!"using", .Decl_Using), (b!"union", .Decl_Union), (b!"public", .Access_Public), (b!"protected", .Access_Protected),
  (b!"private", .Access_Private), (b!"import", .Module_Import), (b!"export", .Module_Export), (b!"unsigned", .Type_Unsigned),
  (b!"signed", .Type_Signed), (b!"short", .Type_Short), (b!"long", .Type_Long), (b!"char", .Type_char), (b!"int", .Type_int),
  (b!"double", .Type_double), (b!"const", .Spec_Const), (b!"constexpr", .Spec_Constexpr), (b!"static", .Spec_Static),
  (b!"inline", .Spec_Inline), (b!"virtual", .Spec_Virtual), (b!"volatile", .Spec_Volatile), (b!"override", .Spec_Override),
  (b!"final", .Spec_Final), (b!"explicit", .Spec_Explicit), (b!"mutable", .Spec_Mutable), (b!"thread_local", .Spec_ThreadLocal),
  (b!"static_assert", .StaticAssert), (b!"alignas", .Spec_Alignas), (b!"#", .Preprocess_Hash)]

/-- C25: each keyword is recognised as its token type. -/
theorem C25_token_keywords : ∀ p ∈ tokenKeywords, strToTokType p.1 = p.2 := by decide +kernel

/-- C25: a string is taken for a (non-Invalid) specifier only if it has the hash of that specifier's spelling; if it has
the hash of no spelling the answer is Invalid. -/
theorem C25_specifier_iff_hash (str : Bytes) (s : Specifier) (hs : s ≠ .Invalid) :
    strToSpecifier str = s ↔ Crc.crc32 str = Crc.crc32 (specToStr s) := by
  constructor
  · intro h
    rcases searchKeymap_spec specToStr .Invalid (Crc.crc32 str) Specifier.all with hk | hk
    · rw [show searchKeymap specToStr Specifier.Invalid (Crc.crc32 str) Specifier.all = s from h] at hk
      exact hk.1.symm
    · exact absurd (h.symm.trans hk.2) hs
  · intro h
    have : strToSpecifier str = strToSpecifier (specToStr s) := by unfold strToSpecifier; rw [h]
    rw [this, C25_specifier_spellings]

/-- C25, the same for tokens. -/
theorem C25_toktype_iff_hash (str : Bytes) (t : TokType) (ht : t ≠ .Invalid) (hx : t ≠ .Spec_Extern) :
    strToTokType str = t ↔ Crc.crc32 str = Crc.crc32 (toktypeToStr t) := by
  constructor
  · intro h
    rcases searchKeymap_spec toktypeToStr .Invalid (Crc.crc32 str) TokType.all with hk | hk
    · rw [show searchKeymap toktypeToStr TokType.Invalid (Crc.crc32 str) TokType.all = t from h] at hk
      exact hk.1.symm
    · exact absurd (h.symm.trans hk.2) ht
  · intro h
    have : strToTokType str = strToTokType (toktypeToStr t) := by unfold strToTokType; rw [h]
    rw [this, C25_toktype_spellings, if_neg hx]

/-- C25: no string that differs from a specifier keyword in at most four consecutive characters (same length), such as a
one-letter misspelling or a change of case of a letter, is taken for it. -/
theorem C25_no_misspelling (pre w w' suf : Bytes) (hl : w.length = w'.length) (h4 : w.length ≤ 4) (hne : w ≠ w')
    (s : Specifier) (hs : s ≠ .Invalid) (hw : specToStr s = pre ++ w ++ suf) : strToSpecifier (pre ++ w' ++ suf) ≠ s := by
  intro h
  have := (C25_specifier_iff_hash _ s hs).mp h
  rw [hw] at this
  exact Crc.C13_burst_detected pre w w' suf hl h4 hne this.symm

/-- C25, refuted: a string that is no keyword is taken for one: the identifier `gwzsll` is lexed as `virtual`. -/
theorem C25_other_strings_refuted :
    (∀ s, specToStr s ≠ b!"gwzsll") ∧ strToSpecifier b!"gwzsll" = .Virtual ∧ strToTokType b!"gwzsll" = .Spec_Virtual := by
  refine ⟨fun s => ?_, by decide +kernel, by decide +kernel⟩
  cases s <;> decide

/-- Non-vacuity of the misspelling theorem: `const` against `cXnst`. -/
example : strToSpecifier b!"cXnst" ≠ .Const :=
  C25_no_misspelling b!"c" b!"o" b!"X" b!"nst" rfl (by decide) (by decide) .Const (by decide) rfl

end Verif
