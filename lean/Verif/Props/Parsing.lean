import Verif.Proof.ParseApi
/-!
# C50-C54: what every parse promises, whatever the text

The vocabulary is in `Verif.Props.ParseSpec`. A fatal failure ends the process (`stop`), and undefined behaviour (`ub`) promises nothing: the
theorems are about the parses that come back.
-/
namespace Verif.Parse
open Verif.Lex (Tok)
open Verif.Ast

private theorem ok_outcome {w w' : World} {d : Bytes} {f : Parser} {p : Nat} (hw : w.Ready) (hf : f ∈ parsers) (h : f.run w d = .ok (p, w')) :
    Parsed w w' ∧ Result w f.types p w' := by
  have := run_outcome (d := d) hw hf
  rw [h] at this
  exact this

/-! ## C50: earlier codes are left alone -/

/-- C50: a parse that comes back has changed none of the codes made before, but for the parent of `t_empty`. -/
theorem C50_untouched {w w' : World} {d : Bytes} {f : Parser} {p : Nat} (hw : w.Ready) (hf : f ∈ parsers) (h : f.run w d = .ok (p, w')) :
    UntouchedButEmpty w w' ∧ w.heap.next ≤ w'.heap.next := ⟨(ok_outcome hw hf h).1.kept, (ok_outcome hw hf h).1.next⟩

/-- C50: nor has any number of parses. -/
theorem C50_history {l : List (Parser × Bytes)} : ∀ {w w' : World} {ps : List Nat}, w.Ready → (∀ x ∈ l, x.1 ∈ parsers) →
    parseAll w l = .ok (ps, w') → UntouchedButEmpty w w' := by
  suffices key : ∀ {w w' : World} {ps : List Nat}, w.Ready → (∀ x ∈ l, x.1 ∈ parsers) → parseAll w l = .ok (ps, w') → Parsed w w' from
    fun {_ _ _} hw hl h => (key hw hl h).kept
  induction l with
  | nil =>
    intro w w' ps hw _ h
    cases h
    exact .refl hw
  | cons x l ih =>
    intro w w' ps hw hl h
    obtain ⟨r, hr, h⟩ := Res.bind_eq_ok.mp h
    obtain ⟨s, hs, h⟩ := Res.bind_eq_ok.mp h
    cases h
    have h1 := (ok_outcome hw (hl x (by simp)) hr).1
    exact h1.trans hw (ih (h1.ready hw) (fun y hy => hl y (by simp [hy])) hs)

/-! ## C51: the right kind of code -/

/-- C51: the code a parse gives is one it has made, of a type that belongs to the function; or it is `Code_Invalid`. -/
theorem C51_kind {w w' : World} {d : Bytes} {f : Parser} {p : Nat} (hw : w.Ready) (hf : f ∈ parsers) (h : f.run w d = .ok (p, w')) :
    (Made w w' p ∧ (w'.heap.cell p).type ∈ f.types) ∨ p = w.env.cfg.invalid := (ok_outcome hw hf h).2

/-! ## C52: parses do not share codes -/

/-- C52: the codes made by a parse refer to one another and to the constants, but to no other code made before. -/
theorem C52_apart {w w' : World} {d : Bytes} {f : Parser} {p : Nat} (hw : w.Ready) (hf : f ∈ parsers) (h : f.run w d = .ok (p, w')) :
    ∀ q, Made w w' q → ∀ r ∈ links (w'.heap.cell q), r < w.heap.next → r = 0 ∨ r ∈ w.env.constants ∨ r = w.env.tEmpty := by
  intro q hq r hr hlt
  rcases (ok_outcome hw hf h).1.apart q hq r hr with h | h | h
  · exact .inl h
  · omega
  · exact .inr h

/-- C52: later parses leave it so: what an earlier parse has made still refers to nothing made by a later one. -/
theorem C52_later {w w' w'' : World} {d d' : Bytes} {f f' : Parser} {p p' : Nat} (hw : w.Ready) (hf : f ∈ parsers) (hf' : f' ∈ parsers)
    (h : f.run w d = .ok (p, w')) (h' : f'.run w' d' = .ok (p', w'')) :
    ∀ q, Made w w' q → w''.heap.cell q = w'.heap.cell q := by
  intro q hq
  have h1 := (ok_outcome hw hf h).1
  have h2 := (ok_outcome (h1.ready hw) hf' h').1
  refine h2.kept.1 q hq.2 ?_
  rw [h1.consts.2.1]
  have := hq.1
  have := hw.empty
  omega

/-! ## C53: the library stays ready -/

/-- C53: as `init` leaves it, the library is ready to parse. -/
theorem C53_init (library : Bool) (room : Nat) (lt : Bool) : ∃ w, initial library room lt = .ok w ∧ w.Ready := by
  let check (h : Heap) : Bool := decide (h.next > 15) && [11, 6, 5, 4, 14, 15, 13].all fun p =>
    let n := h.cell p
    n.parent ≠ 0 && n.front == 0 && n.back == 0 && isBodyType n.type == false && n.type ≠ .Typename && n.inlineCmt == 0 && n.attributes == 0 &&
      n.specs == 0 && (n.typ == 0 || n.typ == 3) && n.params == 0 && n.body == 0 && n.suffix == 0
  have key : ∀ l, (match defineConstants l with | .ok h => check h | _ => false) = true := by decide +kernel
  have := key library
  unfold initial
  cases hd : defineConstants library with
  | ok h =>
    rw [hd] at this
    refine ⟨_, rfl, ?_⟩
    simp only [check, Bool.and_eq_true, decide_eq_true_eq, List.all_eq_true] at this
    obtain ⟨h1, h2⟩ := this
    refine ⟨rfl, ?_, fun i hi => (nomatch hi), ?_, fun p hp => ?_⟩
    · show 0 < h.next; omega
    · show 3 < h.next; omega
    · have h3 := h2 p hp
      have hp' : p ≤ 15 ∧ p ≠ 3 := by
        simp only [Env.constants, List.mem_cons, List.not_mem_nil, or_false] at hp
        omega
      simp only [ne_eq, beq_iff_eq, Bool.or_eq_true, decide_eq_true_eq] at h3
      obtain ⟨⟨⟨⟨⟨⟨⟨⟨⟨⟨⟨h4, h5⟩, h6⟩, h7⟩, h8⟩, h9⟩, h10⟩, h11⟩, h12⟩, h13⟩, h14⟩, h15⟩ := h3
      exact ⟨by show p < h.next; omega, hp'.2, h4, ⟨h5, h6⟩, ⟨h7, h8⟩, h9, h10, h11, h12, h13, h14, h15⟩
  | _ => rw [hd] at this; cases this

/-- C53: after a parse it is ready for the next one, and the stack of scopes is what it was. -/
theorem C53_ready {w w' : World} {d : Bytes} {f : Parser} {p : Nat} (hw : w.Ready) (hf : f ∈ parsers) (h : f.run w d = .ok (p, w')) :
    w'.Ready ∧ w'.scope = w.scope := ⟨(ok_outcome hw hf h).1.ready hw, (ok_outcome hw hf h).1.scope⟩

/-! ## C54: parsing ends -/

/-- C54: parsing a text without the keyword `operator` comes to an end. -/
theorem C54_terminates {w : World} {d : Bytes} {f : Parser} (hw : w.Ready) (hf : f ∈ plainParsers) (h1 : NoToken w d .Decl_Operator) :
    f.run w d ≠ .hang := by
  intro h
  have := plain_outcome (d := d) hw hf (hangs := False) (.inr h1)
  rw [h] at this
  exact this

/-- C54: so does parsing it as a function or operator if there is no `const` either. -/
theorem C54_terminates_const {w : World} {d : Bytes} {f : Parser} (hw : w.Ready) (hf : f ∈ constParsers) (h1 : NoToken w d .Decl_Operator)
    (h2 : NoSpecifier w d .Const) : f.run w d ≠ .hang := by
  intro h
  have := const_outcome (d := d) hw hf (hangs := False) (.inr ⟨h1, h2⟩)
  rw [h] at this
  exact this

end Verif.Parse
