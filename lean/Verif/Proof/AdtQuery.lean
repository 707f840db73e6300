import Verif.Proof.AdtFind
import Verif.Props.AdtPrint
/-! # Queries -/
namespace Verif.Adt
open Verif.Fmt

theorem toDigits_D : ∀ v : Nat, (Nat.toDigits 10 v).map (fun c => UInt8.ofNat c.toNat) = (Num.D 10 v).map Num.chr := by
  have hchr : ∀ d, d < 10 → UInt8.ofNat (Nat.digitChar d).toNat = Num.chr d := by decide +kernel
  intro v
  induction v using Nat.strongRecOn with
  | _ v ih =>
    by_cases h : v < 10
    · rw [Num.D_small h, Nat.toDigits_of_lt_base h]
      simp [hchr v h]
    · rw [Num.D_big (by omega) (by omega), Nat.toDigits_of_base_le (by omega) (by omega), List.map_append, List.map_append, ih _ (Nat.div_lt_self (by omega) (by omega))]
      simp [hchr (v % 10) (by omega)]

theorem intText_eq (v : Int) : intText v = Num.signedText 10 v := by
  unfold intText Num.signedText
  rw [toDigits_D]

theorem intText_nul (v : Int) : (0 : UInt8) ∉ intText v := by
  rw [intText_eq]
  unfold Num.signedText
  simp only [List.mem_append, not_or]
  exact ⟨by split <;> simp, Num.text_no_nul (by omega) (by omega) _⟩

theorem stepBuf_run (lt : Bool) {seg : Bytes} (rest : Bytes) (h0 : (0 : UInt8) ∉ seg) (hl : seg.length + 1 < 131072) :
    ∃ tl, stepBuf lt (seg ++ rest) seg.length = .ok (seg ++ 0 :: tl) := by
  have := C36_fits_partial lt [([], .len seg (rest ++ [0]))] [] (List.replicate printfMax 0) printfMax
    ⟨⟨by simp, by simp⟩, ⟨h0, by omega⟩, (by simp [Conv.isS]), ⟨by simp, by simp⟩⟩ (by simp only [rendered, Conv.text]; unfold printfMax; simpa using hl) (by simp)
  obtain ⟨tl, htl⟩ : ∃ tl, tl = (List.replicate printfMax (0 : UInt8)).drop ((rendered [([], .len seg (rest ++ [0]))] []).length + 1) := ⟨_, rfl⟩
  rw [← htl] at this
  refine ⟨tl, ?_⟩
  unfold stepBuf
  have e1 : fmtText [([], .len seg (rest ++ [0]))] [] = b!"%.*s\x00" := by simp [fmtText, Conv.code]
  have e2 : fmtArgs [([], .len seg (rest ++ [0]))] = [.int seg.length, .cstr (some (seg ++ rest ++ [0]))] := by simp [fmtArgs, Conv.args]
  rw [e1, e2] at this
  rw [this, Res.ok_bind]
  simp [rendered, Conv.text]

theorem at_append : ∀ (p q : Path) (t : Tree), t.at_ (p ++ q) = (t.at_ p).bind (Tree.at_ q)
  | [], q, t => by simp [Tree.at_]
  | i :: p, q, .leaf _ _ => by simp [Tree.at_]
  | i :: p, q, .branch _ _ kids => by
    simp only [List.cons_append, Tree.at_]
    cases kids[i]? with
    | none => rfl
    | some k => simp only [Option.bind_some]; exact at_append p q k

theorem Plain.at {F : F64} {lt : Bool} {real : UInt64 → Bytes} {t k : Tree} {p : Path} (h : Plain F lt real t) (hk : t.at_ p = some k) : Plain F lt real k := by
  intro q name v hq
  exact h (p ++ q) name v (by rw [at_append, hk]; exact hq)

theorem Plain.kid {F : F64} {lt : Bool} {real : UInt64 → Bytes} {name : Option Bytes} {arr : Bool} {kids : List Tree} (h : Plain F lt real (.branch name arr kids)) :
    ∀ k ∈ kids, Plain F lt real k := by
  intro k hk
  obtain ⟨i, hi⟩ := List.mem_iff_getElem?.mp hk
  exact h.at (p := [i]) (by simp [Tree.at_, hi])

theorem getValue_run {F : F64} {lt : Bool} {real : UInt64 → Bytes} {h : Heap} {t : Tree} {n : Node} {f : List Nat} {value : Bytes} (rest : Bytes) (hs : Shows h t n f)
    (hp : Plain F lt real t) (hv : (0 : UInt8) ∉ value) : getValue F lt n (value ++ 0 :: rest) = .ok (t.hasValue real value) := by
  cases t with
  | branch name arr kids =>
    simp only [Shows] at hs
    have := hs.2.1
    unfold getValue
    rw [this]
    cases arr <;> rfl
  | leaf name v =>
    have hp := hp [] name v (by simp [Tree.at_])
    simp only [Shows] at hs
    have hl := hs.2.1
    unfold getValue
    cases v with
    | str s =>
      simp only [Leaf.Is] at hl
      rw [hl.1, hl.2]
      cases s with
      | none => simp [Tree.hasValue]
      | some s =>
        simp only [reduceCtorEq, if_false]
        rw [sameText_run rest hp hv]
        simp [Tree.hasValue]
    | int v =>
      simp only [Leaf.Is] at hl
      simp only at hp
      have hd := printed (F := F) (lt := lt) (n := { type := .integer, integer := v }) (.inl rfl) (digits_decimal F lt _ rfl (by simp) hp.1 hp.2)
      rw [hl]
      simp only [Res.bind_eq, hd, Res.ok_bind, Option.getD_some, sign_flat, Bool.false_eq_true, if_false, List.nil_append]
      rw [← intText_eq]
      have hlen : (intText v).length < 4096 := by
        rw [intText_eq]
        have := Num.signed_len (b := 10) (by omega) v hp.1 hp.2
        omega
      rw [if_pos hlen, sameText_run rest (intText_nul v) hv]
      simp [Tree.hasValue]
    | flt v =>
      simp only [Leaf.Is] at hl
      simp only at hp
      obtain ⟨⟨ps, p1, p2⟩, p3, p4⟩ := hp
      rw [hl]
      simp only [Res.bind_eq, p1, Res.ok_bind, Option.getD_some, p2]
      rw [if_pos p4, sameText_run rest p3 hv]
      simp [Tree.hasValue]

section
variable {F : F64} {lt : Bool} {real : UInt64 → Bytes} {h : Heap} {a : Arr Node} {s value : Bytes} (rs rv : Bytes) (hs0 : (0 : UInt8) ∉ s) (hv0 : (0 : UInt8) ∉ value)
include hs0 hv0

theorem fieldLoop_run : ∀ (ts : List Tree) (cs : List (Option Node)) (f : List Nat) (i : Nat), ShowsAll h ts cs f → AllNamed ts → (∀ t ∈ ts, Plain F lt real t) → CellsAt a i cs →
    fieldLoop F lt a (s ++ 0 :: rs) (value ++ 0 :: rv) ts.length i = .ok (hasField real s value ts)
  | [], cs, f, i, _, _, _, _ => by simp [fieldLoop, hasField]
  | t :: ts, cs, f, i, hs, hnm, hp, hc => by
    simp only [ShowsAll] at hs
    obtain ⟨n, cs', f1, f2, h1, h2, h3, h4⟩ := hs
    subst h1
    simp only [AllNamed] at hnm
    obtain ⟨⟨x, hx, hx0⟩, hrest⟩ := hnm
    obtain ⟨c1, c2⟩ := hc.tail
    have ih := fieldLoop_run ts cs' f2 (i + 1) h3 hrest (fun t ht => hp t (by simp [ht])) c2
    have hname : n.name = some x := by rw [Shows.name h2, hx]
    have hg := getValue_run rv h2 (hp t (by simp)) hv0
    simp only [List.length_cons, fieldLoop, Res.bind_eq, cellAt_eq c1, Res.ok_bind, hname, sameText_run rs hx0 hs0]
    by_cases he : x = s
    · subst he
      simp only [decide_true, if_true, hg, Res.ok_bind]
      unfold hasField at ih ⊢
      cases hb : t.hasValue real value with
      | true => simp [hx, hb]
      | false => simp only [Bool.false_eq_true, if_false, ih, List.any_cons, hb, Bool.and_false, Bool.false_or]
    · simp only [he, decide_false, Bool.false_eq_true, if_false, Res.ok_bind, ih]
      unfold hasField
      simp [hx, he]

theorem getField_run {r : Ref} {n : Node} {name : Option Bytes} {kids : List Tree} {f : List Nat} (hr : h.read r = .ok n) (hs : Shows h (.branch name false kids) n f)
    (hn : (Tree.branch name false kids).Named) (hp : Plain F lt real (.branch name false kids)) :
    getField F lt h r (s ++ 0 :: rs) (value ++ 0 :: rv) = .ok (if hasField real s value kids then some r else none) := by
  obtain ⟨b, a, fs, b1, b2, b3, b4, b5, b6, b7⟩ := branch_facts hr hs
  simp only [Tree.Named] at hn
  have := fieldLoop_run (a := a) rs rv hs0 hv0 kids _ fs 0 b4 (hn.1 trivial) hp.kid CellsAt.take
  simp only [getField, Res.bind_eq, hr, Res.ok_bind, b1, Res.ofOption, b2, b3, this, Res.pure_eq]

theorem objectsLoop_run {b : Nat} (hb : h.block b = .ok a) : ∀ (ts : List Tree) (cs : List (Option Node)) (f : List Nat) (i : Nat), ShowsAll h ts cs f → AllKids ts →
    (∀ t ∈ ts, Plain F lt real t) → CellsAt a i cs →
    objectsLoop F lt h a b (s ++ 0 :: rs) (value ++ 0 :: rv) ts.length i = .ok ((ts.findIdx? (fun k => k.hasField real s value)).map fun j => .cell b (i + j))
  | [], cs, f, i, _, _, _, _ => by simp [objectsLoop]
  | t :: ts, cs, f, i, hs, hnm, hp, hc => by
    simp only [ShowsAll] at hs
    obtain ⟨n, cs', f1, f2, h1, h2, h3, h4⟩ := hs
    subst h1
    simp only [AllKids] at hnm
    obtain ⟨c1, c2⟩ := hc.tail
    have ih := objectsLoop_run hb ts cs' f2 (i + 1) h3 hnm.2 (fun t ht => hp t (by simp [ht])) c2
    have hgo : ((List.findIdx? (fun k => k.hasField real s value) ts).map fun j => Ref.cell b (i + 1 + j)) =
        ((List.findIdx? (fun k => k.hasField real s value) ts).map (fun i => i + 1)).map fun j => Ref.cell b (i + j) := by
      rw [Option.map_map]
      cases List.findIdx? (fun k => k.hasField real s value) ts with
      | none => rfl
      | some j => simp only [Option.map_some, Function.comp]; congr 2; omega
    have hnone : n.num.type ≠ .object → t.hasField real s value = false →
        objectsLoop F lt h a b (s ++ 0 :: rs) (value ++ 0 :: rv) (t :: ts).length i = .ok (((t :: ts).findIdx? (fun k => k.hasField real s value)).map fun j => .cell b (i + j)) := by
      intro hne hf
      simp only [List.length_cons, objectsLoop, Res.bind_eq, cellAt_eq c1, Res.ok_bind, if_neg hne, Option.isSome_none, Bool.false_eq_true, if_false, ih, List.findIdx?_cons, hf, hgo]
    cases t with
    | leaf nm v =>
      refine hnone ?_ rfl
      simp only [Shows] at h2
      have := h2.2.1
      cases v <;> simp only [Leaf.Is] at this <;> simp [this]
    | branch nm arr kids =>
      cases arr with
      | true =>
        refine hnone ?_ rfl
        simp only [Shows] at h2
        simp [h2.2.1]
      | false =>
        have ht : n.num.type = .object := by
          simp only [Shows] at h2
          simpa using h2.2.1
        have hg := getField_run rs rv hs0 hv0 (read_cell (block_eq.mp hb) c1) h2 hnm.1 (hp _ (by simp))
        have he : (Tree.branch nm false kids).hasField real s value = hasField real s value kids := rfl
        simp only [List.length_cons, objectsLoop, Res.bind_eq, cellAt_eq c1, Res.ok_bind, ht, if_true, hg, List.findIdx?_cons, he]
        cases hf : hasField real s value kids with
        | true => simp
        | false => simp only [Bool.false_eq_true, if_false, Option.isSome_none, ih, hgo]

omit hs0 in
theorem valuesLoop_run {b : Nat} : ∀ (ts : List Tree) (cs : List (Option Node)) (f : List Nat) (i : Nat), ShowsAll h ts cs f →
    (∀ t ∈ ts, Plain F lt real t) → CellsAt a i cs →
    valuesLoop F lt a b (value ++ 0 :: rv) ts.length i = .ok ((ts.findIdx? (fun k => k.hasValue real value)).map fun j => .cell b (i + j))
  | [], cs, f, i, _, _, _ => by simp [valuesLoop]
  | t :: ts, cs, f, i, hs, hp, hc => by
    simp only [ShowsAll] at hs
    obtain ⟨n, cs', f1, f2, h1, h2, h3, h4⟩ := hs
    subst h1
    obtain ⟨c1, c2⟩ := hc.tail
    have ih := valuesLoop_run (b := b) ts cs' f2 (i + 1) h3 (fun t ht => hp t (by simp [ht])) c2
    have hg := getValue_run rv h2 (hp t (by simp)) hv0
    simp only [List.length_cons, valuesLoop, Res.bind_eq, cellAt_eq c1, Res.ok_bind, hg, List.findIdx?_cons]
    cases hf : t.hasValue real value with
    | true => simp
    | false =>
      simp only [Bool.false_eq_true, if_false, ih, Option.map_map]
      congr 1
      cases List.findIdx? (fun k => k.hasValue real value) ts with
      | none => rfl
      | some j => simp only [Option.map_some, Function.comp]; congr 2; omega
end

theorem skip_stop : ∀ (s : Bytes) (c : UInt8) (rest : Bytes), (∀ x ∈ s, x ≠ 0 ∧ x ≠ c) → CStr.skip (s ++ c :: rest) c = .ok s.length
  | [], c, rest, _ => by simp [CStr.skip]
  | x :: s, c, rest, h => by
    simp [CStr.skip, h x (by simp), skip_stop s c rest fun y hy => h y (by simp [hy])]

theorem skip_end : ∀ (s : Bytes) (c : UInt8) (rest : Bytes), (∀ x ∈ s, x ≠ 0 ∧ x ≠ c) → CStr.skip (s ++ 0 :: rest) c = .ok s.length
  | [], c, rest, _ => by simp [CStr.skip]
  | x :: s, c, rest, h => by
    simp [CStr.skip, h x (by simp), skip_end s c rest fun y hy => h y (by simp [hy])]

theorem at_mid (a r : Bytes) (x : UInt8) (i : Nat) (hi : i = a.length) : Csv.at_ (a ++ x :: r) i = .ok x := by
  subst hi
  simp [Csv.at_, Res.ofOption]

section
variable {F : F64} {lt : Bool} {real : UInt64 → Bytes} {h : Heap} {r : Ref} {n : Node} {name : Option Bytes} {arr : Bool} {kids : List Tree} {f : List Nat}
  (hr : h.read r = .ok n) (hs : Shows h (.branch name arr kids) n f) (hn : (Tree.branch name arr kids).Named) (hp : Plain F lt real (.branch name arr kids))
include hr hs hn hp

theorem bracket_field {s v : Bytes} (tl : Bytes) (hok : (Seg.field s v).Ok) {b : Nat} {a : Arr Node} (hb1 : n.nodes = some b) (hb : h.block b = .ok a) :
    queryBracket F lt h r n b a ((Seg.field s v).text ++ 0 :: tl) = .ok (((Seg.field s v).to real kids arr).bind (reach h r)) := by
  obtain ⟨b', a', fs, b1, b2, b3, b4, b5, b6, b7⟩ := branch_facts hr hs
  rw [hb1] at b1; cases b1
  rw [hb] at b2; cases b2
  obtain ⟨o1, o2, o3⟩ := hok
  have hs0 : (0 : UInt8) ∉ s := fun e => (o1 0 e).1 rfl
  have hv0 : (0 : UInt8) ∉ v := fun e => (o2 0 e).1 rfl
  have ebuf : (Seg.field s v).text ++ 0 :: tl = 91 :: (s ++ 61 :: (v ++ 93 :: 0 :: tl)) := by simp [Seg.text]
  have k1 : CStr.skip (s ++ 61 :: (v ++ 93 :: 0 :: tl)) 61 = .ok s.length := skip_stop s 61 _ fun x hx => ⟨(o1 x hx).1, (o1 x hx).2.2.1⟩
  have k2 : CStr.skip (s ++ 61 :: (v ++ 93 :: 0 :: tl)) 93 = .ok (s.length + (v.length + 1)) := by
    have := skip_stop (s ++ 61 :: v) 93 (0 :: tl) (by
      intro x hx
      simp only [List.mem_append, List.mem_cons] at hx
      rcases hx with hx | rfl | hx
      · exact ⟨(o1 x hx).1, (o1 x hx).2.2.2⟩
      · decide
      · exact ⟨(o2 x hx).1, (o2 x hx).2.2⟩)
    simpa using this
  have k3 : Csv.at_ (91 :: (s ++ 61 :: (v ++ 93 :: 0 :: tl))) (1 + s.length) = .ok 61 := at_mid (91 :: s) _ 61 _ (by simp; omega)
  have k4 : Csv.at_ (91 :: (s ++ 61 :: (v ++ 93 :: 0 :: tl))) (1 + (s.length + (v.length + 1))) = .ok 93 := by
    have := at_mid (91 :: (s ++ 61 :: v)) (0 :: tl) 93 (1 + (s.length + (v.length + 1))) (by simp; omega)
    simpa using this
  have k5 : Num.put (91 :: (s ++ 61 :: (v ++ 93 :: 0 :: tl))) (1 + (s.length + (v.length + 1))) 0 = .ok (91 :: (s ++ 61 :: (v ++ 0 :: 0 :: tl))) := by
    have := Num.put_split (91 :: (s ++ 61 :: v)) (0 :: tl) 93 0 (1 + (s.length + (v.length + 1))) (by simp; omega)
    simpa using this
  have k6 : Csv.at_ (91 :: (s ++ 61 :: (v ++ 0 :: 0 :: tl))) (1 + s.length) = .ok 61 := at_mid (91 :: s) _ 61 _ (by simp; omega)
  have k7 : Num.put (91 :: (s ++ 61 :: (v ++ 0 :: 0 :: tl))) (1 + s.length) 0 = .ok (91 :: (s ++ 0 :: (v ++ 0 :: 0 :: tl))) := Num.put_split (91 :: s) _ 61 0 _ (by simp; omega)
  have k8 : (91 :: (s ++ 0 :: (v ++ 0 :: 0 :: tl))).drop (1 + s.length + 1) = v ++ 0 :: 0 :: tl := by
    have : 91 :: (s ++ 0 :: (v ++ 0 :: 0 :: tl)) = (91 :: (s ++ [0])) ++ (v ++ 0 :: 0 :: tl) := by simp
    rw [this]
    exact List.drop_left' (by simp; omega)
  rw [ebuf]
  simp only [queryBracket, Res.bind_eq, List.drop_one, List.tail_cons, k1, k2, Res.ok_bind, k3, k4, k5, k6, k7, k8]
  simp only [Res.assert, show ¬ ((61 : UInt8) = 0) by decide, show ¬ ((93 : UInt8) = 0) by decide, false_and, or_self, not_false_eq_true, if_true, Res.ok_bind, ne_eq]
  cases arr with
  | false =>
    simp only [Bool.false_eq_true, if_false] at b5
    rw [if_pos b5, getField_run (0 :: tl |> fun _ => v ++ 0 :: 0 :: tl) (0 :: tl) hs0 hv0 hr hs hn hp]
    simp only [Seg.to]
    split <;> simp [reach]
  | true =>
    simp only [if_true] at b5
    simp only [Tree.Named] at hn
    rw [if_neg (by rw [b5]; decide), b3, objectsLoop_run (v ++ 0 :: 0 :: tl) (0 :: tl) hs0 hv0 hb kids _ fs 0 b4 hn.2 hp.kid CellsAt.take]
    simp only [Seg.to]
    cases hi : kids.findIdx? (fun k => k.hasField real s v) with
    | none => rfl
    | some i =>
      obtain ⟨hl, _⟩ := List.findIdx?_eq_some_iff_getElem.mp hi
      simp [reach, b7 i (by omega)]

theorem bracket_value {v : Bytes} (tl : Bytes) (hok : (Seg.value v).Ok) (harr : arr = true) {b : Nat} {a : Arr Node} (hb1 : n.nodes = some b) (hb : h.block b = .ok a) :
    queryBracket F lt h r n b a ((Seg.value v).text ++ 0 :: tl) = .ok (((Seg.value v).to real kids arr).bind (reach h r)) := by
  obtain ⟨b', a', fs, b1, b2, b3, b4, b5, b6, b7⟩ := branch_facts hr hs
  rw [hb1] at b1; cases b1
  rw [hb] at b2; cases b2
  obtain ⟨o1, o3⟩ := hok
  subst harr
  simp only [if_true] at b5
  have hv0 : (0 : UInt8) ∉ v := fun e => (o1 0 e).1 rfl
  have ebuf : (Seg.value v).text ++ 0 :: tl = 91 :: (v ++ 93 :: 0 :: tl) := by simp [Seg.text]
  have k1 : CStr.skip (v ++ 93 :: 0 :: tl) 61 = .ok (v.length + 1) := by
    have := skip_end (v ++ [93]) 61 tl (by
      intro x hx
      simp only [List.mem_append, List.mem_singleton] at hx
      rcases hx with hx | rfl
      · exact ⟨(o1 x hx).1, (o1 x hx).2.2.1⟩
      · decide)
    simpa using this
  have k2 : CStr.skip (v ++ 93 :: 0 :: tl) 93 = .ok v.length := skip_stop v 93 _ fun x hx => ⟨(o1 x hx).1, (o1 x hx).2.2.2⟩
  have k3 : Csv.at_ (91 :: (v ++ 93 :: 0 :: tl)) (1 + (v.length + 1)) = .ok 0 := by
    have := at_mid (91 :: (v ++ [93])) tl 0 (1 + (v.length + 1)) (by simp; omega)
    simpa using this
  have k4 : Csv.at_ (91 :: (v ++ 93 :: 0 :: tl)) (1 + v.length) = .ok 93 := at_mid (91 :: v) _ 93 _ (by simp; omega)
  have k5 : Num.put (91 :: (v ++ 93 :: 0 :: tl)) (1 + v.length) 0 = .ok (91 :: (v ++ 0 :: 0 :: tl)) := Num.put_split (91 :: v) _ 93 0 _ (by simp; omega)
  have k6 : Csv.at_ (91 :: (v ++ 0 :: 0 :: tl)) (1 + (v.length + 1)) = .ok 0 := by
    have := at_mid (91 :: (v ++ [0])) tl 0 (1 + (v.length + 1)) (by simp; omega)
    simpa using this
  rw [ebuf]
  simp only [queryBracket, Res.bind_eq, List.drop_one, List.tail_cons, k1, k2, Res.ok_bind, k3, k4, k5, k6]
  simp only [Res.assert, b5, show ¬ ((93 : UInt8) = 0) by decide, ne_eq, not_true_eq_false, and_false, or_self, not_false_eq_true, if_true, Res.ok_bind, if_false]
  rw [b3, valuesLoop_run (0 :: tl) hv0 kids _ fs 0 b4 hp.kid CellsAt.take]
  simp only [Seg.to]
  cases hi : kids.findIdx? (fun k => k.hasValue real v) with
  | none => rfl
  | some i =>
    obtain ⟨hl, _⟩ := List.findIdx?_eq_some_iff_getElem.mp hi
    simp [reach, b7 i (by omega)]

end

theorem Seg.clean {s : Seg} (h : s.Ok) : s.text ≠ [] ∧ (∀ x ∈ s.text, x ≠ 0 ∧ x ≠ 47) ∧ s.text.length + 1 < 131072 := by
  cases s with
  | name s => exact ⟨h.1, fun x hx => ⟨fun e => h.2.2.1 (e ▸ hx), fun e => h.2.2.2.1 (e ▸ hx)⟩, h.2.2.2.2⟩
  | index i =>
    simp only [Seg.text, intText_eq]
    have hl := Num.signed_len (b := 10) (by omega) (i : Int) (by omega) (by simp only [Seg.Ok] at h; omega)
    have hsg : Num.signedText 10 (i : Int) = (Num.D 10 i).map Num.chr := by simp [Num.signedText]
    refine ⟨?_, ?_, by omega⟩
    · rw [hsg, Num.D]
      split <;> simp
    · intro x hx
      refine ⟨?_, ?_⟩
      · intro e; subst e
        exact intText_nul i (by rw [intText_eq]; exact hx)
      · intro e; subst e
        rw [← intText_eq] at hx
        unfold intText at hx
        simp only [show ¬ ((i : Int) < 0) by omega, if_false, List.nil_append, Int.natAbs_natCast, List.mem_map] at hx
        obtain ⟨c, hc, he⟩ := hx
        have := Nat.isDigit_of_mem_toDigits (by omega) (by omega) hc
        simp only [Char.isDigit, Bool.and_eq_true, decide_eq_true_eq, ge_iff_le, UInt32.le_iff_toNat_le] at this
        have h2 := congrArg UInt8.toNat he
        simp only [UInt8.toNat_ofNat', show (47 : UInt8).toNat = 47 by rfl] at h2
        have h3 : c.toNat = c.val.toNat := rfl
        have e1 : '0'.val.toNat = 48 := rfl
        have e2 : '9'.val.toNat = 57 := rfl
        omega
  | field s v =>
    refine ⟨by simp [Seg.text], ?_, by simp [Seg.text]; have := h.2.2; omega⟩
    intro x hx
    simp only [Seg.text, List.mem_append] at hx
    rcases hx with (((hx | hx) | hx) | hx) | hx
    · simp at hx; subst hx; decide
    · exact ⟨(h.1 x hx).1, (h.1 x hx).2.1⟩
    · simp at hx; subst hx; decide
    · exact ⟨(h.2.1 x hx).1, (h.2.1 x hx).2.1⟩
    · simp at hx; subst hx; decide
  | value v =>
    refine ⟨by simp [Seg.text], ?_, by simp [Seg.text]; have := h.2; omega⟩
    intro x hx
    simp only [Seg.text, List.mem_append] at hx
    rcases hx with (hx | hx) | hx
    · simp at hx; subst hx; decide
    · exact ⟨(h.1 x hx).1, (h.1 x hx).2.1⟩
    · simp at hx; subst hx; decide

/-- What may follow a step. -/
def Follow (rest : Bytes) : Prop := rest = [] ∨ ∃ r, rest = 47 :: r

theorem skip_seg {s : Seg} (hok : s.Ok) {rest : Bytes} (hf : Follow rest) : CStr.skip (s.text ++ rest ++ [0]) 47 = .ok s.text.length := by
  have hc := (Seg.clean hok).2.1
  rcases hf with rfl | ⟨r, rfl⟩
  · simpa using skip_end s.text 47 [] hc
  · simpa using skip_stop s.text 47 (r ++ [0]) hc

theorem step_run {F : F64} {lt : Bool} {real : UInt64 → Bytes} {h : Heap} {r : Ref} {n : Node} {name : Option Bytes} {arr : Bool} {kids : List Tree} {f : List Nat}
    (hr : h.read r = .ok n) (hs : Shows h (.branch name arr kids) n f) (hn : (Tree.branch name arr kids).Named) (hp : Plain F lt real (.branch name arr kids))
    {s : Seg} (hok : s.Ok) (hfit : s.Fits (.branch name arr kids)) {rest : Bytes} (hf : Follow rest) :
    queryStep F lt h r n (s.text ++ rest) = .ok ((s.to real kids arr).bind (reach h r), s.text.length) := by
  obtain ⟨hne, hc, hl⟩ := Seg.clean hok
  have h0 : (0 : UInt8) ∉ s.text := fun e => (hc 0 e).1 rfl
  obtain ⟨tl, hbuf⟩ := stepBuf_run lt rest h0 hl
  obtain ⟨x, xs, hx⟩ := List.exists_cons_of_ne_nil hne
  have hat : Csv.at_ (s.text ++ rest ++ [0]) 0 = .ok x := by rw [hx]; simp [Csv.at_, Res.ofOption]
  obtain ⟨b, a, fs, b1, b2, b3, b4, b5, b6, b7⟩ := branch_facts hr hs
  unfold queryStep
  simp only [Res.bind_eq]
  rw [skip_seg hok hf, Res.ok_bind, hbuf, Res.ok_bind, hat, Res.ok_bind, b1]
  simp only [Res.ofOption]
  simp only [Res.ok_bind, b2]
  cases s with
  | name s =>
    have hx91 : x ≠ 91 := by
      intro e
      have := hok.2.1
      simp only [Seg.text] at hx
      rw [hx, e] at this
      simp at this
    simp only [Seg.Fits] at hfit
    subst hfit
    simp only [Bool.false_eq_true, if_false] at b5
    rw [if_neg hx91, if_pos b5]
    have := find_run (rest := tl) h0 1 h r n (.branch name false kids) f false hr hs hn (by simp)
    rw [this]
    have e : (Tree.branch name false kids).find (Seg.name s).text false = (Seg.name s).to real kids false := by
      simp only [Tree.find, Seg.text, Seg.to]
      split
      · rename_i i hi
        rw [show List.findIdx? (fun k => decide (k.name = some s)) kids = some i by rw [← hi]; congr 1]
        rfl
      · rename_i hi
        rw [show List.findIdx? (fun k => decide (k.name = some s)) kids = none by rw [← hi]; congr 1]
        rfl
    rw [e, Res.ok_bind]
    rfl
  | index i =>
    have hx91 : x ≠ 91 := by
      intro e
      simp only [Seg.text] at hx
      unfold intText at hx
      simp only [show ¬ ((i : Int) < 0) by omega, if_false, List.nil_append, Int.natAbs_natCast] at hx
      have hm : x ∈ (Nat.toDigits 10 i).map fun c => UInt8.ofNat c.toNat := by rw [hx]; simp
      obtain ⟨c, hc, he⟩ := List.mem_map.mp hm
      have := Nat.isDigit_of_mem_toDigits (by omega) (by omega) hc
      simp only [Char.isDigit, Bool.and_eq_true, decide_eq_true_eq, ge_iff_le, UInt32.le_iff_toNat_le] at this
      rw [e] at he
      have h2 := congrArg UInt8.toNat he
      simp only [UInt8.toNat_ofNat', show (91 : UInt8).toNat = 91 by rfl] at h2
      have h3 : c.toNat = c.val.toNat := rfl
      have e1 : '0'.val.toNat = 48 := rfl
      have e2 : '9'.val.toNat = 57 := rfl
      omega
    simp only [Seg.Fits] at hfit
    subst hfit
    simp only [if_true] at b5
    rw [if_neg hx91, if_neg (by rw [b5]; decide)]
    have hi : (i : Int) < 2 ^ 63 := by simp only [Seg.Ok] at hok; omega
    have := Num.scan_text lt (b := 10) (.inl (by omega)) (i : Int) (by omega) hi tl
    have h2 : Num.cStrToI64 lt ((Seg.index i).text ++ 0 :: tl) 10 = .ok ((i : Int), (Num.signedText 10 (i : Int)).length) := by
      unfold Num.cStrToI64
      rw [if_neg (by omega)]
      simp only [Seg.text, intText_eq, Res.ok_bind]
      exact this
    simp only [queryIndex, Res.bind_eq, h2, Res.ok_bind, Res.pure_eq, Seg.to]
    by_cases hlt : i < kids.length
    · rw [if_pos ⟨by omega, by omega⟩, if_pos hlt]
      simp [reach, b7 i (by omega)]
    · rw [if_neg (by omega), if_neg hlt]
      rfl
  | field s v =>
    have hx91 : x = 91 := by
      simp [Seg.text] at hx
      exact hx.1.symm
    rw [if_pos hx91, bracket_field hr hs hn hp tl hok b1 b2]
    rfl
  | value v =>
    have hx91 : x = 91 := by
      simp [Seg.text] at hx
      exact hx.1.symm
    simp only [Seg.Fits] at hfit
    rw [if_pos hx91, bracket_value hr hs hn hp tl hok hfit b1 b2]
    rfl

theorem joined_cons (s : Seg) : ∀ ss : List Seg, ∃ rest, joined (s :: ss) = s.text ++ rest ∧ Follow rest ∧ (ss = [] → rest = []) ∧ (ss ≠ [] → rest = 47 :: joined ss)
  | [] => ⟨[], by simp [joined], .inl rfl, fun _ => rfl, fun h => absurd rfl h⟩
  | x :: ss => ⟨47 :: joined (x :: ss), by simp [joined], .inr ⟨_, rfl⟩, by simp, fun _ => rfl⟩

theorem skipSlash_joined {ss : List Seg} (hok : ∀ s ∈ ss, s.Ok) : skipSlash (joined ss) = joined ss := by
  cases ss with
  | nil => rfl
  | cons s ss =>
    obtain ⟨rest, hj, _⟩ := joined_cons s ss
    obtain ⟨hne, hc, _⟩ := Seg.clean (hok s (by simp))
    obtain ⟨x, xs, hx⟩ := List.exists_cons_of_ne_nil hne
    have : x ≠ 47 := (hc x (by rw [hx]; simp)).2
    rw [hj, hx]
    simp [skipSlash, this]

theorem query_none {F : F64} {lt : Bool} {h : Heap} {fuel : Nat} {uri : Bytes} : query F lt (fuel + 1) h none uri = .ok none := by
  simp only [query]
  split <;> rfl

theorem Named.at {t k : Tree} : ∀ {p : Path} {t k : Tree}, t.at_ p = some k → t.Named → k.Named
  | [], t, k, h, hn => by
    simp only [Tree.at_, Option.some.injEq] at h
    exact h ▸ hn
  | i :: p, .leaf _ _, k, h, hn => by simp [Tree.at_] at h
  | i :: p, .branch _ _ kids, k, h, hn => by
    simp only [Tree.at_] at h
    simp only [Tree.Named] at hn
    cases hi : kids[i]? with
    | none => rw [hi] at h; simp at h
    | some x =>
      rw [hi] at h
      simp only [Option.bind_some] at h
      exact Named.at (t := t) (k := k) h (allKids_mem hn.2 x (List.mem_of_getElem? hi))

theorem query_run {F : F64} {lt : Bool} {real : UInt64 → Bytes} {h : Heap} {ss : List Seg} {t : Tree} {res : Option Path} (hw : Walks real ss t res) :
    ∀ {r : Ref} {n : Node} {f : List Nat} {fuel : Nat} {uri : Bytes}, h.read r = .ok n → Shows h t n f → t.Named → Plain F lt real t → (∀ s ∈ ss, s.Ok) → ss.length < fuel →
      skipSlash uri = joined ss → query F lt fuel h (some r) uri = .ok (res.bind (reach h r)) := by
  induction hw with
  | done t =>
    intro r n f fuel uri hr hs hn hp hok hfuel hu
    obtain ⟨fuel, rfl⟩ : ∃ k, fuel = k + 1 := ⟨fuel - 1, by omega⟩
    simp only [query, hu, joined, if_true]
    rfl
  | leaf s ss name v =>
    intro r n f fuel uri hr hs hn hp hok hfuel hu
    obtain ⟨fuel, rfl⟩ : ∃ k, fuel = k + 1 := ⟨fuel - 1, by omega⟩
    obtain ⟨rest, hj, _⟩ := joined_cons s ss
    have hne : joined (s :: ss) ≠ [] := by rw [hj]; simp [(Seg.clean (hok s (by simp))).1]
    have hb : isBranch n = false := by
      simp only [Shows] at hs
      have := hs.2.1
      unfold isBranch
      cases v <;> simp only [Leaf.Is] at this <;> simp [this]
    simp only [query, hu, if_neg hne, Res.bind_eq, hr, Res.ok_bind, hb, Bool.not_false, if_true]
    rfl
  | nowhere s ss name arr kids hfit hto =>
    intro r n f fuel uri hr hs hn hp hok hfuel hu
    obtain ⟨fuel, rfl⟩ : ∃ k, fuel = k + 1 := ⟨fuel - 1, by omega⟩
    obtain ⟨rest, hj, hfo, hr1, hr2⟩ := joined_cons s ss
    have hne : joined (s :: ss) ≠ [] := by rw [hj]; simp [(Seg.clean (hok s (by simp))).1]
    obtain ⟨b, a, fs, b1, b2, b3, b4, b5, b6, b7⟩ := branch_facts hr hs
    have hst := step_run hr hs hn hp (hok s (by simp)) hfit hfo
    rw [← hj, hto] at hst
    simp only [query, hu, if_neg hne, Res.bind_eq, hr, Res.ok_bind, b6, Bool.not_true, Bool.false_eq_true, if_false, hst, Option.bind_none]
    split
    · rename_i hlt
      cases fuel with
      | zero =>
        cases ss with
        | nil => rw [hj, hr1 rfl] at hlt; simp at hlt
        | cons y ys => simp at hfuel
      | succ fuel => exact query_none
    · rfl
  | on s ss name arr kids p k q hfit hto hat hw ih =>
    intro r n f fuel uri hr hs hn hp hok hfuel hu
    obtain ⟨fuel, rfl⟩ : ∃ k, fuel = k + 1 := ⟨fuel - 1, by omega⟩
    obtain ⟨rest, hj, hfo, hr1, hr2⟩ := joined_cons s ss
    have hne : joined (s :: ss) ≠ [] := by rw [hj]; simp [(Seg.clean (hok s (by simp))).1]
    obtain ⟨b, a, fs, b1, b2, b3, b4, b5, b6, b7⟩ := branch_facts hr hs
    obtain ⟨r', n', f', q1, q2, q3⟩ := reach_at p r n _ k f hr hs hat
    have hst := step_run hr hs hn hp (hok s (by simp)) hfit hfo
    rw [← hj, hto] at hst
    simp only [query, hu, if_neg hne, Res.bind_eq, hr, Res.ok_bind, b6, Bool.not_true, Bool.false_eq_true, if_false, hst, Option.bind_some, q1]
    have hres : (q.map (p ++ ·)).bind (reach h r) = q.bind (reach h r') := by
      cases q with
      | none => rfl
      | some q => simp [reach_append, q1]
    rw [hres]
    by_cases hss : ss = []
    · subst hss
      have : ¬ s.text.length < (joined [s]).length := by simp [joined]
      rw [if_neg this]
      cases hw
      rfl
    · have hlt : s.text.length < (joined (s :: ss)).length := by rw [hj, hr2 hss]; simp
      have hdrop : (joined (s :: ss)).drop (s.text.length + 1) = joined ss := by
        rw [hj, hr2 hss, show s.text ++ 47 :: joined ss = (s.text ++ [47]) ++ joined ss by simp]
        exact List.drop_left' (by simp)
      rw [if_pos hlt, hdrop]
      exact ih q2 q3 (Named.at (t := k) (k := k) hat hn) (hp.at hat) (fun s hs => hok s (by simp [hs])) (by simp at hfuel; omega) (skipSlash_joined fun s hs => hok s (by simp [hs]))

end Verif.Adt
