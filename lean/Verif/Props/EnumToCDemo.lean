import Verif.Props.EnumToC
import Verif.Props.ParseDemo
import Verif.Props.RoundDemo
/-!
# C69: cases
-/
namespace Verif.EnumToC
open Ast
open Verif.Parse (World initial parse_global_body)

/-- The content is parsed, the enum that is its entry number `k` is converted into a new body, and the body is printed. -/
def converted (src : Bytes) (k : Nat) : Res Bytes :=
  (initial true 24 true).bind fun w => (parse_global_body w src).bind fun r => (entries r.2.heap r.1).bind fun es => (defBody r.2.heap .Global_Body).bind fun o =>
    match o with
    | none => .stop
    | some (b, h) => (HTable.initReserve 8).bind fun tbl =>
      (convert (fun n => n * 7 / 10) 7 true (fun _ => true) tbl { r.2 with heap := h } (es.getD k 0) b).bind fun w => Ser.codeToStr { h := w.2.heap } 7 b

/-! ## Cases -/

example : converted b!"enum E : u8 { A, B };" 0 = .ok b!"enum E enum_underlying(u8)\n{\nA,B\n};\ntypedef u8 E;\n" := by decide +kernel

/-- Without underlying type. -/
example : converted b!"enum E { A, B };" 0 = .ok b!"enum E\n{\nA,B\n};\ntypedef enum E E;\n" := by decide +kernel

/-- `u8` -/
def demoTy : Round.Ty := ⟨.name ⟨b!"u8", []⟩, []⟩

/-- The library with an enum `E : u8` that is in no body, and an empty body. -/
def laid (w : World) : World := { w with heap := { next := w.heap.next + 3, cell := fun x =>
  if x = w.heap.next then { type := .Typename, name := b!"u8" } else if x = w.heap.next + 1 then { type := .Enum, name := b!"E", typ := w.heap.next }
  else if x = w.heap.next + 2 then { type := .Global_Body } else w.heap.cell x } }

theorem laid_fresh {w : World} (hw : initial true 24 true = .ok w) (hok : demoTy.Ok w.env.ms) (hn : Round.IsName w.env.ms b!"E") :
    Round.Fresh (laid w) (typedefSource demoTy.text b!"E") := by
  intro ts ⟨ms, hts⟩
  have hl := Round.lex_pieces (g := []) (by intro x hx; cases hx) (pieces_run hok hn).1 starts
  rw [written_pieces, List.nil_append] at hl
  have hts : Lex.lex true w.env.ms _ = _ := hts
  rw [hts] at hl
  cases hl
  show Parse.Behind (w.env.cells.drop _)
  rw [Parse.initial_cells hw, Round.toksAt_length, List.drop_replicate]
  refine ⟨by rw [List.length_replicate]; decide, ?_⟩
  intro t ht
  have := List.mem_of_head? ht
  rw [(List.mem_replicate.mp this).2]
  decide

/-- The hypotheses of `C69_underlying` are met by it. -/
example : ∃ w tbl fuel tbl' w' o p u, initial true 24 true = .ok w ∧
    convert (fun n => n * 7 / 10) fuel true (fun _ => true) tbl (laid w) (w.heap.next + 1) (w.heap.next + 2) = .ok (tbl', w') ∧
    IsBody w'.heap (w.heap.next + 2) [o, p] ∧ (w'.heap.cell u).content = b!"enum_underlying(u8)" ∧ (w'.heap.cell o).params = u ∧
    ∀ E : Ser.Env, E.h = w'.heap → Ser.Prints E .code p b!"typedef u8 E;\n" := by
  obtain ⟨w, hw, hr, -⟩ := Parse.C56_spelled_init true 24 true
  obtain ⟨tbl, e0, hw0, hk0, -⟩ := HTable.init_wf (α := Bytes) (n := 8) (by decide)
  have h : HTable.Holds tbl (fun _ => none) := ⟨hw0, fun x => by rw [hk0]; rfl⟩
  have hm := Parse.initial_macros hw
  have hs := hr.started
  have hrd : (laid w).Ready := ⟨hr.fatal, Nat.succ_pos _, hr.index, Nat.lt_add_right 3 hr.empty, fun x hx => by
    obtain ⟨k1, k2, k3, k4, k5, k6⟩ := hr.constants x hx
    have e : (laid w).heap.cell x = w.heap.cell x := by
      show (if x = w.heap.next then _ else if x = w.heap.next + 1 then _ else if x = w.heap.next + 2 then _ else _) = _
      rw [if_neg (by omega), if_neg (by omega), if_neg (by omega)]
    exact ⟨Nat.lt_add_right 3 k1, k2, by rw [e]; exact k3, by rw [e]; exact k4, by rw [e]; exact k5, by rw [e]; exact k6⟩⟩
  have c0 : (laid w).heap.cell w.heap.next = { type := .Typename, name := b!"u8" } := by simp [laid]
  have c1 : (laid w).heap.cell (w.heap.next + 1) = { type := .Enum, name := b!"E", typ := w.heap.next } := by simp [laid]
  have c2 : (laid w).heap.cell (w.heap.next + 2) = { type := .Global_Body } := by simp [laid]
  have v : ∀ k, k < 3 → (laid w).heap.Valid (w.heap.next + k) := fun k hk => ⟨by omega, by show _ < w.heap.next + 3; omega⟩
  have hok : demoTy.Ok w.env.ms := by rw [hm]; exact ⟨(by intro x hx; rw [List.mem_singleton.mp hx]; exact Round.name_of (by decide +kernel)), (by intro x hx; cases hx), by decide, (by intro x hx; simp [demoTy] at hx)⟩
  have hn : Round.IsName w.env.ms b!"E" := by rw [hm]; exact Round.name_of (by decide +kernel)
  obtain ⟨fuel, tbl', w', o, p, u, h1, h2, -⟩ := C69_underlying (crit := fun n => n * 7 / 10) (lt := true) (null := fun _ => true) (tbl := tbl) (w := laid w) (q := w.heap.next + 1)
    (b := w.heap.next + 2) (l := []) (t := demoTy) hrd h
    ⟨Nat.succ_pos _, v 2 (by omega), by rw [c2]; rfl, trivial, fun _ => by rw [c2], (by intro x hx; cases hx), (by intro x hx; cases hx), (by intro hx; cases hx), .nil⟩
    (by rw [c2]; rfl) (v 1 (by omega)) (by omega) (by intro hx; cases hx) (by rw [c1]; rfl) (by rw [c1]; exact v 0 (by omega)) hok (by rw [c1]; exact hn)
    (by
      rw [c1]
      have hc := (Ser.C47_typename (e := { h := (laid w).heap, lt := true, nullStr := fun _ => true }) (p := w.heap.next) (l := []) (v 0 (by omega)) c0 (fun hh => absurd rfl hh) rfl (.inl rfl)).1
      exact hc.print' (by rw [Ser.nameText]; simp only [c0]; rfl) ⟨by decide, by decide⟩)
    (by rw [c1]; show _ ∧ (macroText ((laid w).heap.cell w.heap.next).name).length ≤ _; rw [c0]; exact ⟨by show (_ : List UInt8).length ≤ _; exact (by decide : (typedefSource demoTy.text b!"E").length ≤ 131000), by decide⟩)
    (by rw [c1]; exact laid_fresh hw hok hn)
  refine ⟨w, tbl, fuel, tbl', w', o, p, u, hw, h1, h2.body, ?_, ?_, fun E hE => ?_⟩
  · rw [h2.macroNode.2.2, c1]
    show macroText ((laid w).heap.cell w.heap.next).name = _
    rw [c0]
    rfl
  · exact (congrArg Node.params h2.node :)
  · have := h2.shows E hE
    rw [c1] at this
    exact this.print' rfl ⟨by decide, by decide⟩

end Verif.EnumToC
