import Verif.Props.FilesUse
import Verif.Props.ReadDirectiveDemo
/-! # C62 Files: from file to file -/
namespace Verif.Files
open Verif.Os

variable {s : Sys} {c : Bytes}

/-- C62: whatever is printed with a builder is, after `builder_write`, the content of its file, in order and complete; a file of this name that was there
before is replaced, every other file is as it was, and the descriptor and the memory of the name are given back. Whenever the process is killed, the next one
finds the file with a beginning of the text (or the state before), and everything else as it was. -/
theorem C62_builder {fatal lt : Bool} {e : Ser.Env} {fuel size : Nat} {l : List Builder.Op} {ts : List Bytes} (hl : Builder.PrintsAll e fuel l ts) {path : Bytes}
    (hp : s.os.disk.look path = none ∨ ∃ c, s.file path = some c) (hc : Calm s) :
    ∃ b s' n, builderSession fatal lt e fuel size s path l = .ok (b, s') ∧ Built s s' path ts.flatten n := by
  have hf : s.os.fates = [] := hc
  obtain ⟨b, s', n, k, h1, h2, h3, -⟩ := session_run (fatal := fatal) (lt := lt) (size := size) hl hp (by unfold nextFate; rw [hf]; decide)
    (fun _ => by unfold secondFate; rw [hf]; decide)
  rw [List.take_of_length_le (h3 (by unfold secondFate; rw [hf]; rfl))] at h2
  exact ⟨b, s', n, h1, h2⟩

/-- C62, with trouble: if the file can be opened, then the session ends with a beginning of the text in the file. -/
theorem C62_builder_any {fatal lt : Bool} {e : Ser.Env} {fuel size : Nat} {l : List Builder.Op} {ts : List Bytes} (hl : Builder.PrintsAll e fuel l ts) {path : Bytes}
    (hp : s.os.disk.look path = none ∨ ∃ c, s.file path = some c) (h1 : nextFate s ≠ .fails) (h2 : fatal = true → secondFate s ≠ .fails) :
    ∃ b s' n k, builderSession fatal lt e fuel size s path l = .ok (b, s') ∧ Built s s' path (ts.flatten.take k) n := by
  obtain ⟨b, s', n, k, h1, h2, -⟩ := session_run (fatal := fatal) (lt := lt) (size := size) hl hp h1 h2
  exact ⟨b, s', n, k, h1, h2⟩

/-- C62: if the file cannot be opened or written, the session stops the program (where failures are fatal, which is the default). -/
theorem C62_builder_stops {lt : Bool} {e : Ser.Env} {fuel size : Nat} {l : List Builder.Op} {path : Bytes} (h : nextFate s = .fails) :
    builderSession true lt e fuel size s path l = .stop := by
  obtain ⟨f, s', e1, -⟩ := C62_open_fails (s := s) (path := path) .write (.inl h)
  have e1 : fileOpenMode s 2 path = .ok (.INVALID, f, s') := e1
  unfold builderSession builderOpen
  simp only [Res.bind_eq, e1, Res.ok_bind]
  rfl

/-- C62 is false where failures are not fatal: a builder whose file cannot be opened has no buffer, and the first thing printed goes through it. -/
theorem C62_builder_refuted {lt : Bool} {e : Ser.Env} {fuel size : Nat} {o : Builder.Op} {l : List Builder.Op} {path : Bytes} (h : nextFate s = .fails) :
    builderSession false lt e fuel size s path (o :: l) = .ub := by
  obtain ⟨f, s', e1, -⟩ := C62_open_fails (s := s) (path := path) .write (.inl h)
  have e1 : fileOpenMode s 2 path = .ok (.INVALID, f, s') := e1
  unfold builderSession builderOpen
  simp only [Res.bind_eq, e1, Res.ok_bind]
  rfl

/-- C62 is false of a write that the system cuts off: the session ends as if nothing were wrong, fatal failures or not, and the file holds a part of the text. -/
theorem C62_builder_short_refuted (fatal lt : Bool) (e : Ser.Env) : ∃ b s', builderSession fatal lt e 0 8 (one ⟨true, false, false⟩ b!"abc" 0 [.full, .atMost 1]) b!"b" [.padLines 1, .padLines 1] = .ok (b, s') ∧
    s'.file b!"b" = some b!"\n" := by
  cases fatal <;> exact ⟨_, _, rfl, by decide⟩

/-- C62 is false of replacing a file in one step: if there was one, there is a moment at which its old content is gone and nothing of the new one is there. -/
theorem C62_builder_not_atomic_refuted {fatal lt : Bool} {e : Ser.Env} {fuel size : Nat} {l : List Builder.Op} {ts : List Bytes} (hl : Builder.PrintsAll e fuel l ts) {path : Bytes}
    (hp : s.file path = some c) (hc : Calm s) :
    ∃ b s', builderSession fatal lt e fuel size s path l = .ok (b, s') ∧ ∃ x ∈ s'.os.history, Disk.file x path = some [] := by
  have hf : s.os.fates = [] := hc
  obtain ⟨b, s', n, k, h1, -, -, h4⟩ := session_run (fatal := fatal) (lt := lt) (size := size) hl (.inr ⟨c, hp⟩) (by unfold nextFate; rw [hf]; decide)
    (fun _ => by unfold secondFate; rw [hf]; decide)
  exact ⟨b, s', h1, h4 ⟨c, hp⟩⟩

/-- C62: from file to file. A file whose content parses as a code that prints as `x` (C56 says which contents do) is parsed and printed to another file, which
then holds `x`; no other file differs. -/
theorem C62_translate {w : Parse.World} {k : Nat} {from' to' x : Bytes} (hf : s.file from' = some c) (hp : Parse.ParsesAs w Parse.parse_global_body c k x) (hx : Ser.Fits x)
    (ht : s.os.disk.look to' = none ∨ ∃ d, s.file to' = some d) (hne : c ≠ []) (hc : Calm s) :
    ∃ p w' s1, parsePath w s from' = .ok ((p, w'), s1) ∧ ∀ E : Ser.Env, E.h = w'.heap → ∀ (fatal lt : Bool) (size : Nat),
      ∃ fuel b s', ∃ n : Nat, builderSession fatal lt E fuel size s1 to' [.print p] = .ok (b, s') ∧ s'.file to' = some x ∧
        (∀ m, m ≠ n → s'.os.disk.nodes[m]? = s.os.disk.nodes[m]?) ∧ ∀ q, q ≠ to' → s'.os.disk.look q = s.os.disk.look q := by
  obtain ⟨p, w', e, -, -, -, hpr⟩ := hp
  obtain ⟨s1, e1, hu⟩ := C62_parse_file w hf hne hc
  rw [e] at e1
  refine ⟨p, w', s1, e1, fun E hE fatal lt size => ?_⟩
  obtain ⟨fuel, hfu⟩ := hpr E hE hx
  have hl : Builder.PrintsAll E fuel [.print p] [x] := .cons (.print hfu) .nil
  have ht1 : s1.os.disk.look to' = none ∨ ∃ d, s1.file to' = some d := by
    rw [hu.disk]
    refine ht.imp id fun ⟨d, hd⟩ => ⟨d, ?_⟩
    unfold Sys.file at hd ⊢
    rw [hu.disk]
    exact hd
  obtain ⟨b, s', n, k1, k2⟩ := C62_builder (fatal := fatal) (lt := lt) (size := size) hl ht1 (hu.calm hc)
  refine ⟨fuel, b, s', n, k1, by simpa using k2.file, fun m hm => ?_, fun q hq => ?_⟩
  · rw [k2.nodes m hm, hu.disk]
  · rw [k2.names q hq, hu.disk]

/-! ## Cases -/

/-- Two files, and the standard descriptors. -/
def two (c d : Bytes) : Sys :=
  ⟨⟨⟨[(b!"in", 1), (b!"out", 2)], [⟨false, []⟩, ⟨true, c⟩, ⟨true, d⟩]⟩, [some ⟨0, 0, true, false, false⟩, some ⟨0, 0, false, true, false⟩, some ⟨0, 0, false, true, false⟩], [], true, []⟩,
    [], false, [⟨false, 0, false, none⟩, ⟨false, 0, false, none⟩, ⟨false, 0, false, none⟩]⟩

/-- The file of Props/ReadDirectiveDemo.lean is parsed, and its normal form replaces another file. -/
example : ∃ (w : Parse.World) (p : Nat) (w' : Parse.World) (s1 : Sys), parsePath w (two Parse.dirDemo b!"old") b!"in" = .ok ((p, w'), s1) ∧ ∀ E : Ser.Env, E.h = w'.heap →
    ∃ fuel b s', builderSession true true E fuel 128 s1 b!"out" [.print p] = .ok (b, s') ∧
      s'.file b!"out" = some b!"#pragma once\n\n#include <a>\n#ifndef A\n#define A 2\n#define F( x,  y) x + y\n#else\nint i;\n#endif\n" := by
  obtain ⟨w, -, hp⟩ := Parse.dirDemo_parses
  obtain ⟨p, w', s1, h1, h2⟩ := C62_translate (s := two Parse.dirDemo b!"old") (from' := b!"in") (to' := b!"out") rfl hp ⟨by decide, by decide⟩ (.inr ⟨b!"old", rfl⟩) (by decide) rfl
  refine ⟨w, p, w', s1, h1, fun E hE => ?_⟩
  obtain ⟨fuel, b, s', n, h3, h4, -⟩ := h2 E hE true true 128
  exact ⟨fuel, b, s', h3, h4⟩

/-- Comma-separated values. -/
example : ∃ s', parseCsvTwoColumns (two b!"a,b\nc,d\n" []) b!"in" = .ok ((([b!"a", b!"c"] : List Bytes), ([b!"b", b!"d"] : List Bytes)), s') ∧ Unchanged (two b!"a,b\nc,d\n" []) s' :=
  C62_two_columns (e := .none) (c1 := ⟨none, [b!"a", b!"c"]⟩) (c2 := ⟨none, [b!"b", b!"d"]⟩) (cols := []) rfl (by decide) (by decide) rfl (by decide +kernel)

/-- A file that `scan_file` accepts, and the standard output of a process. -/
example : ∃ s', scanPath true (two b!"int a;" []) b!"in" = .ok (b!"int a;", s') := by
  obtain ⟨s', h, -⟩ := C62_scan_file (lt := true) (s := two b!"int a;" []) (path := b!"in") rfl (by decide) rfl
  exact ⟨s', h⟩

example : IsStream (two [] []) ⟨true, 1, false, none⟩ 0 [] := ⟨⟨0, false, false, rfl⟩, rfl⟩

end Verif.Files
