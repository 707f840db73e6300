import Verif.Props.Round
import Verif.Props.ReadNameDemo
import Verif.Props.ReadRefute
/-!
# C59, cases

A file with a namespace, a struct with a label and a variable, and a function. It is what it should be (`Ok`), it comes back with two empty lines more, and another two
in every round.
-/
namespace Verif.Round
open Verif.Lex (Tok Macros Piece Spaces NotNext readsB readsB_sound notNextB notNextB_sound wordB_sound)
open Verif.Parse

/-- `Sits` for tokens. -/
def sitsB (ms : Macros) : Bool → List Piece → Bytes → Bool
  | _, [], _ => true
  | b, q :: l, r => q.gap.all charIsSpace && (!b || notNextB (fun b => b == 13 || b == 10) q.gap) && readsB ms q (written l ++ r) && sitsB ms (lineStart b q.all) l r

theorem sitsB_sound {ms : Macros} {l : List Piece} {r : Bytes} : ∀ {b : Bool}, sitsB ms b l r = true → Sits ms b l r := by
  induction l with
  | nil => intro b _; trivial
  | cons q l ih =>
    intro b h
    simp only [sitsB, Bool.and_eq_true] at h
    refine ⟨List.all_eq_true.mp h.1.1.1, fun hb => ?_, .token (readsB_sound h.1.2), ih h.2⟩
    have := h.1.1.2
    rw [hb] at this
    exact notNextB_sound (by simpa using this)

theorem name_of {x : Bytes} (h : (Lex.wordB x && decide (strToTokType x = .Invalid) && decide (Lex.lookupMacro firstMacros x = none)) = true) : IsName firstMacros x := by
  simp only [Bool.and_eq_true, decide_eq_true_eq] at h
  exact ⟨wordB_sound h.1.1, h.1.2, h.2⟩

def one (x : Bytes) : Qual := ⟨x, []⟩

theorem one_ok {x : Bytes} (h : IsName firstMacros x) : (one x).Ok firstMacros := by
  intro y hy
  rw [List.mem_singleton.mp hy]
  exact h

def intTy : Ty := ⟨.native b!"int" [], []⟩

theorem intTy_ok : intTy.Ok firstMacros where
  name := by
    intro x hx
    rw [List.mem_singleton.mp hx]
    exact ⟨⟨105, b!"nt", rfl, .inl (by decide), by decide⟩, by decide +kernel⟩
  specs := by intro s hs; cases hs
  few := by decide
  refs := by intro s hs; have := hs.length_le; simp [intTy] at this

/-- `1 + y` -/
def demoValue : List Piece := [⟨[], b!"1", [], .Number, 2048⟩, ⟨b!" ", b!"+", [], .Operator, 1⟩, ⟨b!" ", b!"y", [], .Identifier, 0⟩]

/-- `return a;` and the line break. -/
def demoBody : List Piece := [⟨[], b!"return", [], .Identifier, 0⟩, ⟨b!" ", b!"a", [], .Identifier, 0⟩, ⟨[], b!";", b!"\n", .Statement_End, 512⟩]

/-- `int x = 1 + y;` -/
def demoVar : Var := ⟨[], intTy, one b!"x", .array [] (.value demoValue)⟩

/-- ` static⏎int f( int a)⏎{⏎return a;⏎}` -/
def demoFn : Fn := ⟨[.Static], intTy, one b!"f", [⟨intTy, b!"a", []⟩], [], some demoBody⟩

/-- The file. -/
def demoFile : Body :=
  .comment b!"// N\n" (.space (one b!"N") (.record (.named .struct (one b!"A") false) (.label .pub (.var demoVar .nil)) .nil) (.fn demoFn .nil))

example : demoFile.text = b!"// N\nnamespace N\n{\nstruct A\n{\npublic:\nint x = 1 + y;\n\n};\n\n}\n static\nint f( int a)\n{\nreturn a;\n}\n" := by decide

example : demoFile.again.text = b!"// N\nnamespace N\n{\nstruct A\n{\npublic:\nint x = 1 + y;\n\n\n};\n\n\n}\n static\nint f( int a)\n{\nreturn a;\n}\n" := by decide

theorem demoValue_code : IsCode firstMacros demoValue b!";" where
  filled := by intro hh; cases hh
  tight := by intro q hq; cases hq; rfl
  sits := sitsB_sound (by decide +kernel)
  code := by intro q hq; simp only [demoValue, List.mem_cons, List.not_mem_nil, or_false] at hq; rcases hq with rfl | rfl | rfl <;> decide

theorem demoValue_tame : Tame demoValue :=
  .all (by intro q hq; simp only [demoValue, List.mem_cons, List.not_mem_nil, or_false] at hq; rcases hq with rfl | rfl | rfl <;> decide)
    (by intro q hq; cases hq; intro hh; cases hh)

theorem demoBody_tame : Tame demoBody :=
  .all (by intro q hq; simp only [demoBody, List.mem_cons, List.not_mem_nil, or_false] at hq; rcases hq with rfl | rfl | rfl <;> decide)
    (by intro q hq; cases hq; intro hh; cases hh)

theorem demoVar_at : demoVar.At firstMacros .record where
  ok := ⟨(by intro s hs; cases hs), (by decide), intTy_ok, one_ok (name_of (by decide +kernel)), .array (by intro k hk; cases hk) (.value demoValue_code (value_of (by decide)))⟩
  specs := ⟨(by intro s hs; cases hs), (by intro _ f l h; cases h; decide +kernel)⟩
  eval := by intro hh; cases hh
  parens := by intro l k hh; cases hh
  noMacro := by intro q hq; cases hq; intro hh; cases hh
  calls := by intro k hk; rw [List.mem_singleton.mp hk]; exact demoValue_tame

theorem demoBody_body : IsFnBody firstMacros demoBody where
  tight := by intro q hq; cases hq; exact ⟨rfl, by intro hh; cases hh⟩
  sits := sitsB_sound (by decide +kernel)
  ends := by intro q hq; cases hq; exact ⟨.inl rfl, rfl⟩
  balanced := balanced_of (by decide)

theorem demoFn_ok {l : List Specifier} (hl : .Static ∈ l) : demoFn.Ok firstMacros l where
  lead := by intro s hs; rw [List.mem_singleton.mp hs]; exact ⟨hl, by intro hh; cases hh⟩
  ty := intTy_ok
  name := one_ok (name_of (by decide +kernel))
  params := by
    intro p hp
    rw [List.mem_singleton.mp hp]
    exact ⟨intTy_ok, fun _ => name_of (by decide +kernel), fun hh => absurd rfl hh⟩
  trail := by intro s hs; cases hs
  few := by decide
  body := by intro k hk; cases hk; exact demoBody_body

theorem demoFn_at : demoFn.At firstMacros .file where
  ok := demoFn_ok (by decide)
  specs := ⟨(by intro s hs; cases hs; decide), (by intro hh; cases hh)⟩
  volatile := by decide
  first := by intro a b l hh; cases hh
  ctor := by intro l w x hh; have := congrArg List.length hh; simp [demoFn, one] at this
  calls := ⟨(by intro a ha; rw [List.mem_singleton.mp ha]; exact .nil), (by intro k hk; cases hk; exact demoBody_tame)⟩

theorem demoFile_ok : Body.Ok firstMacros .file true demoFile :=
  .comment (.line (w := b!" N") (by decide)) (.space (.inl rfl) (one_ok (name_of (by decide +kernel)))
    (.record (one_ok (name_of (by decide +kernel))) (.label (.var (by intro hh; cases hh) demoVar_at .nil)) .nil) (.fn (by intro hh; cases hh) demoFn_at .nil))

theorem fresh_initial {w : World} {l lt : Bool} {n : Nat} {x : Body} (hw : initial l n lt = .ok w) (h : Body.Ok firstMacros .file true x) (h0 : x ≠ .nil) (hn : (fileP x).length + 2 ≤ n) :
    Fresh w x.text := by
  intro ts hts
  obtain ⟨pos, hl, -⟩ := file_lexed h (by intro hh; cases hh) h0
  obtain ⟨ms, hts⟩ := hts
  rw [initial_macros hw, hl] at hts
  cases hts
  rw [initial_cells hw, toksAt_length, List.drop_replicate]
  refine ⟨by rw [List.length_replicate]; omega, ?_⟩
  intro t ht
  have := List.mem_of_head? ht
  rw [(List.mem_replicate.mp this).2]
  decide

/-- The file comes back with two empty lines more. -/
example : ∃ w, initial true 64 true = .ok w ∧ Reprints w parse_global_body demoFile.text demoFile.again.text := by
  obtain ⟨w, hw, hr, hs⟩ := C56_spelled_init true 64 true
  have hm := initial_macros hw
  exact ⟨w, hw, C59_file hr hs (by rw [hm]; exact demoFile_ok) (by intro hh; cases hh) (by decide) (fresh_initial hw demoFile_ok (by intro hh; cases hh) (by decide))⟩

/-- The third round. -/
example : ∃ w, initial true 64 true = .ok w ∧ Reprints w parse_global_body (demoFile.rounds 2).text (demoFile.rounds 3).text ∧ (demoFile.rounds 3).text.length = demoFile.text.length + 6 := by
  obtain ⟨w, hw, hr, hs⟩ := C56_spelled_init true 64 true
  have hm := initial_macros hw
  have hf : Fresh w (demoFile.rounds 2).text := fresh_initial hw (rounds_ok demoFile_ok 2) (by intro hh; cases hh) (by decide)
  exact ⟨w, hw, (C59_rounds hr hs (by rw [hm]; exact demoFile_ok) (by intro hh; cases hh) (by decide) 2 hf).1, by decide⟩

/-- The variable and the function come back as they are. -/
example : ∃ w, initial true 64 true = .ok w ∧ Reprints w parse_variable demoVar.text demoVar.text ∧ Reprints w parse_function demoFn.text demoFn.text := by
  obtain ⟨w, hw, hr, -⟩ := C56_spelled_init true 64 true
  have hm := initial_macros hw
  refine ⟨w, hw, C59_variable hr (by rw [hm]; exact ⟨(by intro s hs; cases hs), demoVar_at.ok.few, intTy_ok, demoVar_at.ok.name, demoVar_at.ok.tail⟩),
    C59_function hr (by rw [hm]; exact demoFn_ok (by decide)) ?_⟩
  have := fresh_initial (x := .fn demoFn .nil) hw (.fn (by intro hh; cases hh) demoFn_at .nil) (by intro hh; cases hh) (by decide)
  rw [show (Body.fn demoFn .nil).text = demoFn.text by simp [Body.text]] at this
  exact this

/-! ## What does not come back -/

/-- C59: not every printed text can be parsed. An array without a bound is printed with blanks between its brackets, and then it is not one any more. -/
theorem C59_empty_bound : shown parse_variable b!"int a[];" = .ok b!"int a[   ];\n" ∧ shown parse_variable b!"int a[   ];\n" = .stop := by
  constructor <;> decide +kernel

/-- C59: a struct does not come back as it is. -/
theorem C59_struct_grows : shown parse_struct b!"struct A\n{\nint x;\n\n};\n" = .ok b!"struct A\n{\nint x;\n\n\n};\n" := by decide +kernel

end Verif.Round
