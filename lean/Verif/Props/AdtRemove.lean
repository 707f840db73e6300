import Verif.Props.AdtMore
import Verif.Proof.Array
/-!
# C61: removing a node that has a parent
-/
namespace Verif.Adt

/-- Whatever is in the array of its parent, removing a node with a parent takes away that entry and nothing else. -/
theorem C61_remove_present {h : Heap} {b i : Nat} {n pn : Node} {p : Ref} {a : Arr Node} (hn : h.read (.cell b i) = .ok n) (hp : n.parent = some p)
    (hr : h.read p = .ok pn) (hc : pn.nodes = some b) (hb : h.block b = .ok a) (hi : Arr.Inv a) (hlt : i < a.num) :
    ∃ h' a', removeNode h (.cell b i) = .ok h' ∧ h'.block b = .ok a' ∧ a'.contents = a.contents.eraseIdx i ∧
      h'.vars = h.vars ∧ ∀ c, c ≠ b → h'.block c = h.block c := by
  obtain ⟨a', h1, -, h3⟩ := Arr.removeAt_spec hi hlt
  have hl : b < h.blocks.length := by
    apply Decidable.byContradiction
    intro hx
    unfold Heap.block at hb
    rw [List.getElem?_eq_none (by omega)] at hb
    cases hb
  refine ⟨h.setBlock b (some a'), a', ?_, ?_, h3, rfl, fun c hcb => ?_⟩
  · simp [removeNode, indexIn, Res.bind_eq, Res.pure_eq, hn, hp, hr, hc, hb, h1, Res.ok_bind, Res.assert, Res.ofOption]
  · simp [Heap.block, Heap.setBlock, List.getElem?_set_self hl]
  · simp [Heap.block, Heap.setBlock, List.getElem?_set_ne (Ne.symm hcb)]

/-- A branch with two children that know it; the second one goes. -/
def twoChildren : Heap :=
  let arr : Arr Node := { cells := [some { name := some b!"a", parent := some (.var 0) }, some { name := some b!"b", parent := some (.var 0) }], num := 2, capacity := 2 }
  { vars := [{ nodes := some 0 }], blocks := [some arr] }

example : ∃ h' a', removeNode twoChildren (.cell 0 1) = .ok h' ∧ h'.block 0 = .ok a' ∧ a'.contents = [some { name := some b!"a", parent := some (.var 0) }] := by
  obtain ⟨h', a', h1, h2, h3, -⟩ := C61_remove_present (h := twoChildren) (b := 0) (i := 1) (p := .var 0) rfl rfl rfl rfl rfl ⟨by decide, by decide, rfl⟩ (by decide)
  exact ⟨h', a', h1, h2, h3⟩

end Verif.Adt
