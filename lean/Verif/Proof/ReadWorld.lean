import Verif.Proof.ReadFn
import Verif.Props.Parsing
import Verif.Props.LexExact
/-!
# From a content to its tokens
-/
namespace Verif.Parse
open Verif.Lex (Tok Lexes Pos Spaces NotNext)
open Verif.Ast
open Verif.Ser hiding Env boundsText isNext

variable {w : World} {g t x : Bytes} {ts more : List Tok} {ms' : Lex.Macros}

/-- The library after the content has been turned into tokens. -/
def World.read (w : World) (c : Bytes) (ts : List Tok) (ms : Lex.Macros) : World :=
  { w with env := { w.env with
      mem := c ++ [0], num := ts.length, ms := ms, cells := ts ++ (w.env.cells.drop ts.length).map (stale (c ++ [0])) } }

theorem lex_read {c : Bytes} (h : Lex.lex true w.env.ms c = .ok (some (ts, ms'))) : w.lex c = .ok (some (w.read c ts ms')) := by
  unfold World.lex
  rw [h]
  rfl

theorem parse_read {c : Bytes} {f : P Nat} {p : Nat} {s' : St} (hc : c ≠ []) (h : Lex.lex true w.env.ms c = .ok (some (ts, ms')))
    (hf : f (w.read c ts ms').env ⟨0, w.heap, w.scope⟩ = .ok (p, s')) :
    w.parse c f = .ok (p, { w.read c ts ms' with idx := some s'.idx, heap := s'.heap, scope := s'.scope }) := by
  unfold World.parse World.begin
  rw [if_neg hc, lex_read h, Res.ok_bind]
  show World.call _ f = _
  unfold World.call
  show (f (w.read c ts ms').env ⟨0, w.heap, w.scope⟩).bind _ = _
  rw [hf]
  rfl

theorem here_read {c : Bytes} {h : Heap} {sc : List Bytes} :
    Here (w.read c ts ms').env ⟨0, h, sc⟩ ts ((w.env.cells.drop ts.length).map (stale (c ++ [0]))) := by
  refine ⟨rfl, ?_⟩
  show ts.length = 0 + ts.length
  omega

/-- What a parsing function gives, seen from outside. -/
theorem gives_lexed {c : Bytes} {f : P Nat} (hr : w.Ready) (hx : Lex.lex true w.env.ms c = .ok (some (ts ++ more, ms')))
    (hf : Here (w.read c (ts ++ more) ms').env ⟨0, w.heap, w.scope⟩ (ts ++ more) ((w.env.cells.drop (ts ++ more).length).map (stale (c ++ [0]))) →
      Gives f (w.read c (ts ++ more) ms').env ⟨0, w.heap, w.scope⟩ ts.length x) : ParsesAs w (fun w d => w.parse d f) c ts.length x := by
  have hc : c ≠ [] := by
    intro hh
    subst hh
    revert hx
    have : Lex.lex true w.env.ms [] = .stop := by rfl
    rw [this]
    simp
  have hf := hf here_read
  obtain ⟨p, h', r1, r2, r3, r4, r5, r6⟩ := hf
  have hs := hr.started
  have r3 : w.heap.next ≤ p := r3
  refine ⟨p, _, parse_read hc hx r1, fun q hq => r2 q hq.1 hq.2, ⟨r3, ?_⟩, by simp, ?_⟩
  · show p < h'.next
    omega
  · intro E hE
    have hE : E.h = h' := hE
    subst hE
    refine r6 E 0 (E.h.cell p).front (E.h.cell p).back ?_ ?_ ?_ (.inl rfl)
    · intro q (h1 : w.heap.next ≤ q) h2
      exact ⟨⟨by omega, by omega⟩, rfl⟩
    · exact ⟨by omega, by omega⟩
    · rw [← r5.1]

theorem gives_read {c : Bytes} {f : P Nat} (hr : w.Ready) (hl : HasToks w.env.ms c (ts ++ more))
    (hf : ∀ ms' rest, Here (w.read c (ts ++ more) ms').env ⟨0, w.heap, w.scope⟩ (ts ++ more) rest →
      Gives f (w.read c (ts ++ more) ms').env ⟨0, w.heap, w.scope⟩ ts.length x) : ParsesAs w (fun w d => w.parse d f) c ts.length x := by
  obtain ⟨ms', hx⟩ := hl
  exact gives_lexed hr hx (hf ms' _)

/-- The cells left over are the same ones as before, for what matters here. -/
theorem Calm.stale {ts more cells : List Tok} {m : Bytes} (h : Calm ts (more ++ cells)) : Calm ts (more ++ cells.map (Parse.stale m)) := by
  intro u hu hs
  obtain ⟨t, h1, h2⟩ := h u hu hs
  cases more with
  | nil =>
    cases cells with
    | nil => cases h1
    | cons v cells =>
      cases h1
      exact ⟨_, rfl, h2⟩
  | cons v more => exact ⟨t, h1, h2⟩

end Verif.Parse
