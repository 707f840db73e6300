import Verif.Props.SerVars
import Verif.Props.SerFns
/-!
# Serialization: the theorems at work

A heap with one node of every kind, and the text each of them is printed as, derived from the theorems C34 and C45-C48: the
hypotheses of the theorems are met, and what they say is the text one expects (or, for the `_refuted` ones, does not expect).
-/
namespace Verif.Ser.Demo
open Ast

instance (t : Bytes) : Decidable (Fits t) := inferInstanceAs (Decidable (_ ∧ _))

instance (e : Env) (p : Nat) : Decidable (Slot e p) := inferInstanceAs (Decidable (_ → _))

theorem _root_.Verif.Ser.Says.print {e : Env} {f : Fn} {p : Nat} {t u : Bytes} (h : Says e f p t) (hf : Fits t) (ht : t = u) :
    Prints e f p u := ht ▸ h hf

def specNode (l : List Specifier) : Node :=
  { type := .Specifiers, num := l.length, arrSpecs := l ++ List.replicate (14 - l.length) .Invalid }

def nodes : List Node := [
  /- 0 -/ {},
  /- 1 -/ { type := .Typename, name := b!"int" },
  /- 2 -/ { type := .Untyped, content := b!"body" },
  /- 3 -/ { type := .PlatformAttributes, content := b!"[[x]]" },
  /- 4 -/ specNode [.Virtual, .Const],
  /- 5 -/ { type := .Comment, content := b!"//c\n" },
  /- 6 -/ { type := .Parameters, name := b!"a", typ := 1, num := 1 },
  /- 7 -/ { type := .Typename, name := b!"Base", back := 8 },
  /- 8 -/ { type := .Typename, name := b!"Iface" },
  /- 9 -/ { type := .Untyped, content := b!"3", back := 10 },
  /- 10 -/ { type := .Untyped, content := b!"4" },
  /- 11 -/ { type := .Typename, name := b!"float", body := 9 },
  /- 12 -/ specNode [.Final],
  /- 13 -/ specNode [.Virtual, .Pure],
  /- 14 -/ specNode [.Static, .Ptr],
  /- 15 -/ { type := .Parameters, name := b!"a", typ := 1, num := 2, back := 16, front := 16 },
  /- 16 -/ { type := .Parameters, name := b!"b", typ := 1, num := 0, parent := 15, body := 9 },
  /- 17 -/ { type := .Namespace, name := b!"N", body := 18, moduleFlags := 1 },
  /- 18 -/ { type := .Namespace_Body, front := 19, back := 21, num := 3 },
  /- 19 -/ { type := .Struct, name := b!"S", specs := 12, typ := 7, num := 3, body := 22, parent := 18, back := 20 },
  /- 20 -/ { type := .Function, name := b!"f", specs := 4, typ := 1, params := 15, body := 2, parent := 18, front := 19, back := 21 },
  /- 21 -/ { type := .Variable, name := b!"v", typ := 11, body := 9, parent := 18, front := 20 },
  /- 22 -/ { type := .Struct_Body, front := 23, back := 25, num := 3, parent := 19 },
  /- 23 -/ { type := .Access_Public, name := b!"public:\n", parent := 22, back := 24 },
  /- 24 -/ { type := .Constructor, typ := 9, params := 6, body := 2, parent := 22, front := 23, back := 25 },
  /- 25 -/ { type := .Enum, name := b!"E", typ := 1, body := 2, parent := 22, front := 24 },
  /- 26 -/ { type := .Class, name := b!"C", specs := 12, body := 2, attributes := 3, inlineCmt := 5 },
  /- 27 -/ { type := .Class_Fwd, name := b!"C", inlineCmt := 5 },
  /- 28 -/ { type := .Struct_Fwd, name := b!"C", attributes := 3 },
  /- 29 -/ { type := .Union, name := b!"U", body := 2, moduleFlags := 1 },
  /- 30 -/ { type := .Union_Fwd, name := b!"U" },
  /- 31 -/ { type := .Enum_Fwd, name := b!"E", typ := 1 },
  /- 32 -/ { type := .Enum_Class, name := b!"E", typ := 1, body := 2 },
  /- 33 -/ { type := .Enum_Class, name := b!"E", body := 2 },
  /- 34 -/ { type := .Enum_Class_Fwd, name := b!"E", typ := 1 },
  /- 35 -/ { type := .Enum_Class_Fwd, name := b!"E" },
  /- 36 -/ { type := .Class, name := b!"C", typ := 7, num := 3, body := 2 },
  /- 37 -/ { type := .Struct, name := b!"S", typ := 8, num := 2, body := 2 },
  /- 38 -/ { type := .Function_Fwd, name := b!"f", typ := 1, specs := 4, suffix := 2, inlineCmt := 5 },
  /- 39 -/ { type := .Operator, name := b!"operator +", typ := 1, params := 15, body := 2, attributes := 3 },
  /- 40 -/ { type := .Operator_Fwd, name := b!"operator +", typ := 1, params := 15, attributes := 3 },
  /- 41 -/ { type := .Operator_Cast, typ := 1, specs := 4, body := 2 },
  /- 42 -/ { type := .Operator_Cast_Fwd, typ := 1, specs := 4 },
  /- 43 -/ { type := .Operator_Cast_Fwd, typ := 1, inlineCmt := 5 },
  /- 44 -/ { type := .Constructor_Fwd, params := 6, parent := 22, inlineCmt := 5 },
  /- 45 -/ { type := .Destructor, specs := 4, body := 2, parent := 19 },
  /- 46 -/ { type := .Destructor_Fwd, parent := 19 },
  /- 47 -/ { type := .Destructor_Fwd, specs := 13, parent := 19 },
  /- 48 -/ { type := .Function, name := b!"f", typ := 1, body := 2, moduleFlags := 1 },
  /- 49 -/ { type := .Function_Fwd, name := b!"f", typ := 1, specs := 13 },
  /- 50 -/ { type := .Typename, name := b!"F", typ := 1, params := 6, specs := 12 },
  /- 51 -/ { type := .Typename, name := b!"F", typ := 1, params := 6, attributes := 3 },
  /- 52 -/ { type := .Using, name := b!"T", typ := 11 },
  /- 53 -/ { type := .Typedef, name := b!"T", typ := 1 },
  /- 54 -/ { type := .Typedef, name := b!"T", typ := 11 },
  /- 55 -/ { type := .Variable, name := b!"v", typ := 1, specs := 14, suffix := 56, inlineCmt := 5 },
  /- 56 -/ { type := .Variable, name := b!"w", specs := 14, parent := 55 },
  /- 57 -/ { type := .Module, name := b!"M", moduleFlags := 2 },
  /- 58 -/ { type := .Extern_Linkage, name := b!"C", body := 2 },
  /- 59 -/ { type := .Using_Namespace, name := b!"N" },
  /- 60 -/ { type := .Using_Namespace, name := b!"N", inlineCmt := 5 },
  /- 61 -/ { type := .Template, params := 6, body := 29 },
  /- 62 -/ { type := .Friend, body := 1 },
  /- 63 -/ { type := .Preprocess_Define, name := b!"M", body := 2 },
  /- 64 -/ { type := .Preprocess_Define, name := b!"M", body := 2, params := 65 },
  /- 65 -/ { type := .Parameters_Define, name := b!"x", num := 2, back := 66 },
  /- 66 -/ { type := .Parameters_Define, name := b!"y" },
  /- 67 -/ { type := .Preprocess_IfDef, content := b!"M" },
  /- 68 -/ { type := .Export_Body, num := 1, front := 2, back := 2 },
  /- 69 -/ { type := .Preprocess_Else },
  /- 70 -/ { type := .Invalid },
  /- 71 -/ { type := .Typename, name := b!"T", isParamPack := true, typeTag := 1, specs := 14 }]

def env : Env := { h := { next := 72, cell := fun p => nodes.getD p {} } }

theorem is (p : Nat) (hp : env.h.Valid p) : Is env p (nodes.getD p {}).type (nodes.getD p {}) := ⟨hp, rfl, rfl⟩

theorem untyped (p : Nat) (n : Node) (hp : Is env p .Untyped n) : Prints env .body p n.content ∧ Prints env .code p n.content :=
  ⟨C34_text_body (.inl hp), C48_text (.inl hp)⟩

theorem int : Prints env .typename 1 b!"int" :=
  (C47_typename (e := env) (p := 1) (l := []) (by decide) rfl (by decide) rfl (.inl rfl)).1.print (by decide +kernel) (by decide +kernel)

theorem base : Prints env .typename 7 b!"Base" :=
  (C47_typename (e := env) (p := 7) (l := []) (by decide) rfl (by decide) rfl (.inl rfl)).1.print (by decide +kernel) (by decide +kernel)

theorem iface : Prints env .typename 8 b!"Iface" :=
  (C47_typename (e := env) (p := 8) (l := []) (by decide) rfl (by decide) rfl (.inl rfl)).1.print (by decide +kernel) (by decide +kernel)

theorem float : Prints env .typename 11 b!"float" :=
  (C47_typename (e := env) (p := 11) (l := []) (by decide) rfl (by decide) rfl (.inl rfl)).1.print (by decide +kernel) (by decide +kernel)

theorem text2 : Prints env .body 2 b!"body" ∧ Prints env .code 2 b!"body" := untyped 2 _ (is 2 (by decide))

theorem text9 : Prints env .code 9 b!"3" := (untyped 9 _ (is 9 (by decide))).2

theorem text10 : Prints env .code 10 b!"4" := (untyped 10 _ (is 10 (by decide))).2

theorem specs4 : IsSpecs env.h 4 [.Virtual, .Const] := ⟨by decide, rfl, rfl, rfl, by decide⟩

theorem specs12 : IsSpecs env.h 12 [.Final] := ⟨by decide, rfl, rfl, rfl, by decide⟩

theorem specs13 : IsSpecs env.h 13 [.Virtual, .Pure] := ⟨by decide, rfl, rfl, rfl, by decide⟩

theorem specs14 : IsSpecs env.h 14 [.Static, .Ptr] := ⟨by decide, rfl, rfl, rfl, by decide⟩

theorem param6 : Prints env .params 6 b!" int a" :=
  (C47_param (e := env) (p := 6) (st := []) (vt := []) (by decide) rfl (by decide) (by decide) (fun _ => int) (fun h => absurd rfl h)
    (fun h => absurd rfl h)).print (by decide +kernel) (by decide +kernel)

theorem param16 : Prints env .params 16 b!" int b = 3" :=
  (C47_param (e := env) (p := 16) (st := []) (by decide) rfl (by decide) (by decide) (fun _ => int) (fun h => absurd rfl h)
    (fun _ => text9)).print (by decide +kernel) (by decide +kernel)

theorem params15 : Prints env .params 15 b!" int a,  int b = 3" :=
  (C22_prints (e := env) (p := 15) (l := [16]) (ts := [b!" int b = 3"]) (st := []) (vt := [])
    ⟨by decide, by decide, rfl, ⟨rfl, by decide, trivial⟩, rfl, by simp, by simp; rfl, by simp; rfl, by simp, by simp⟩
    (by decide) (fun _ => int) (fun h => absurd rfl h) (fun h => absurd rfl h) ⟨param16, trivial⟩).print (by decide +kernel) (by decide +kernel)

theorem access23 : Prints env .code 23 b!"public:\n" := C48_access (.inr (.inr (is 23 (by decide))))

theorem ctor24 : Prints env .code 24 b!"S(  int a ) : 3\n{\nbody\n}\n" :=
  (C46_constructor (e := env) (is 24 (by decide)) (by decide) (by decide) text2.2 (fun _ => param6) (fun _ => text9) (by decide)).print
    (by decide +kernel) (by decide +kernel)

theorem enum25 : Prints env .code 25 b!"enum E : int\n{\nbody\n};\n" :=
  (C45_enum (e := env) (mt := []) (is 25 (by decide)) text2.1 (by decide) (by decide) (fun _ => int) (fun h => absurd rfl h)).print
    (by decide +kernel) (by decide +kernel)

theorem body22 : Prints env .body 22 b!"public:\nS(  int a ) : 3\n{\nbody\n}\nenum E : int\n{\nbody\n};\n" :=
  (C34_body (e := env) (b := 22) (l := [23, 24, 25]) (ts := [_, _, _])
    ⟨by decide, by decide, rfl, ⟨rfl, by decide, rfl, by decide, rfl, by decide, trivial⟩, by simp, by simp; rfl, by decide +kernel, by simp, by simp⟩
    rfl ⟨access23, ctor24, enum25, trivial⟩).1

theorem struct19 : Prints env .code 19
    b!"struct S final : public Base\n, Iface\n{\npublic:\nS(  int a ) : 3\n{\nbody\n}\nenum E : int\n{\nbody\n};\n\n};\n" :=
  (C45_struct (e := env) (l := [.Final]) (ps := [8]) (ts := [b!"Iface"]) (is 19 (by decide)) body22 (by decide)
    specs12 (by decide) (by decide) (by decide) (fun _ => ⟨base, ⟨rfl, by decide, rfl⟩, iface, trivial⟩) (by decide)).print
    (by decide +kernel) (by decide +kernel)

theorem function20 : Prints env .code 20 b!" virtual\nint f( int a,  int b = 3) const\n{\nbody\n}\n" :=
  (C46_function (e := env) (st := []) (l := [.Virtual, .Const]) (is 20 (by decide)) text2.1 (by decide) specs4
    (fun _ => int) (fun _ => params15) (fun h => absurd rfl h)).print (by decide +kernel) (by decide +kernel)

theorem var21 : Prints env .code 21 b!"float v[ 3 ][ 4 ] = 3;\n" :=
  (C47_variable_code (is 21 (by decide)) _).2 <|
  (C47_variable (e := env) (p := 21) (st := []) (nx := []) (l := [9, 10]) (ts := [_, _]) (by decide) rfl (by decide)
    (by rintro ⟨_, h⟩; revert h; decide) rfl rfl (by decide) float (fun h => absurd rfl h)
    (fun _ => ⟨rfl, by decide, rfl, by decide, rfl⟩) (fun _ => ⟨text9, text10, trivial⟩) (fun _ => text9) (fun h => absurd rfl h)
    (by decide)).print (by decide +kernel) (by decide +kernel)

/-- A namespace with a struct (a constructor, an enum), a function and a variable, printed by `code_to_strbuilder`. -/
theorem namespace17 : Prints env .code 17 (b!"export namespace N\n{\n" ++
    b!"struct S final : public Base\n, Iface\n{\npublic:\nS(  int a ) : 3\n{\nbody\n}\nenum E : int\n{\nbody\n};\n\n};\n" ++
    b!" virtual\nint f( int a,  int b = 3) const\n{\nbody\n}\n" ++
    b!"float v[ 3 ][ 4 ] = 3;\n" ++ b!"\n}\n") :=
  (C48_namespace (e := env) (is 17 (by decide))
    (C34_body (e := env) (b := 18) (l := [19, 20, 21]) (ts := [_, _, _])
      ⟨by decide, by decide, rfl, ⟨rfl, by decide, rfl, by decide, rfl, by decide, trivial⟩, by simp, by simp; rfl, by decide +kernel, by simp,
        by simp⟩
      rfl ⟨struct19, function20, var21, trivial⟩).1).print (by decide +kernel) (by decide +kernel)

/-- C34_body_only: the entries of this body are printed. -/
example : ∃ ts, PrintAll env .code [19, 20, 21] ts ∧ ts.length = 3 :=
  ⟨[_, _, _], ⟨struct19, function20, var21, trivial⟩, rfl⟩

example (t : Bytes) : ¬ Prints env .code 68 t := C34_export_refuted (is 68 (by decide)) (by decide) t

example : Prints env .code 26 b!"class [[x]] C final // //c\n\n{\nbody\n};\n" :=
  (C45_class (e := env) (l := [.Final]) (is 26 (by decide)) rfl text2.1 (by decide) specs12 (by decide) (by decide)).print
    (by decide +kernel) (by decide +kernel)

example : Prints env .code 27 b!"class C; // //c\n\n" :=
  (C45_class_fwd (e := env) (is 27 (by decide)) (by decide) (by decide) (by decide)).print (by decide +kernel) (by decide +kernel)

example : Prints env .code 28 b!"struct [[x]] C;\n" :=
  (C45_struct_fwd (e := env) (is 28 (by decide)) (by decide) (by decide) (by decide)).print (by decide +kernel) (by decide +kernel)

theorem union29 : Prints env .code 29 b!"export union U\n{\nbody\n};\n" :=
  (C45_union (e := env) (is 29 (by decide)) text2.1 (by decide) (by decide)).print (by decide +kernel) (by decide +kernel)

example : Prints env .code 30 b!"union U;\n" :=
  (C45_union_fwd (e := env) (is 30 (by decide)) (by decide) (by decide)).print (by decide +kernel) (by decide +kernel)

example : Prints env .code 31 b!"enum E : int;\n" :=
  (C45_enum_fwd (e := env) (mt := []) (is 31 (by decide)) (by decide) (by decide) (by decide) (fun _ => int) (fun h => absurd rfl h)).print
    (by decide +kernel) (by decide +kernel)

example : Prints env .code 32 b!"enum class E : int\n{\nbody\n};\n" :=
  (C45_enum_class (e := env) (is 32 (by decide)) text2.1 (by decide) (by decide) (fun _ => int) (.inr (by decide))).print
    (by decide +kernel) (by decide +kernel)

/-- The enum class is printed as a plain enum. -/
example : Prints env .code 33 b!"enum E\n{\nbody\n};\n" :=
  (C45_enum_class_refuted (e := env) (is 33 (by decide)) text2.1 (by decide) rfl rfl).print (by decide +kernel) (by decide +kernel)

example : Prints env .code 34 b!"enum class E : int;\n" :=
  (C45_enum_class_fwd (e := env) (is 34 (by decide)) (by decide) (by decide) (by decide) int).print (by decide +kernel) (by decide +kernel)

example (t : Bytes) : ¬ Prints env .code 35 t := C45_enum_class_fwd_refuted (is 35 (by decide)) rfl t

example (t : Bytes) : ¬ Prints env .code 36 t := C45_class_parent_refuted (is 36 (by decide)) (by decide) (by decide) (by decide) t

/-- `protected` is printed as `private`. -/
example : Prints env .code 37 b!"struct S : private Iface\n{\nbody\n};\n" :=
  (C45_protected_refuted (e := env) (l := []) (ps := []) (ts := []) (is 37 (by decide)) text2.1 (by decide) rfl (by decide) (by decide) (by decide)
    (by decide) iface rfl trivial rfl (by decide)).print (by decide +kernel) (by decide +kernel)

example : Prints env .code 38 b!" virtual\nint f() const body;  //c\n" :=
  (C46_function_fwd (e := env) (l := [.Virtual, .Const]) (t := []) (pt := []) (is 38 (by decide)) (fun h => absurd rfl h) (by decide) specs4
    (fun _ => int) (fun h => absurd rfl h) (fun _ => text2.2) (by decide)).print (by decide +kernel) (by decide +kernel)

/-- The attributes of an operator are printed twice. -/
example : Prints env .code 39 b!"[[x]] [[x]] \nint operator + ( int a,  int b = 3)\n{\nbody\n}\n" :=
  (C46_operator (e := env) (l := []) (.inl (is 39 (by decide))) text2.1 (by decide) rfl (by decide) int (fun _ => params15)).print
    (by decide +kernel) (by decide +kernel)

example : Prints env .code 40 b!"[[x]]\n\nint operator + ( int a,  int b = 3);\n" :=
  (C46_operator_fwd (e := env) (l := []) (.inl (is 40 (by decide))) (by decide) rfl (by decide) int (fun _ => params15)).print
    (by decide +kernel) (by decide +kernel)

example : Prints env .code 41 b!"virtual operator int() const\n{\nbody\n}\n" :=
  (C46_cast (e := env) (l := [.Virtual, .Const]) (is 41 (by decide)) text2.1 specs4 int).print (by decide +kernel) (by decide +kernel)

example : Prints env .code 42 b!"virtual operator int() const;\n" :=
  (C46_cast_fwd (e := env) (l := [.Virtual, .Const]) (is 42 (by decide)) specs4 int (by decide) (.inl (by decide))).print
    (by decide +kernel) (by decide +kernel)

example (t : Bytes) : ¬ Prints env .code 43 t :=
  C46_cast_comment_refuted (is 43 (by decide)) rfl (by decide) int (by decide) (by decide) t

example : Prints env .code 44 b!"S(  int a ); // //c\n\n" :=
  (C46_constructor_fwd (e := env) (t := []) (is 44 (by decide)) (by decide) (by decide) (fun h => absurd rfl h) (fun _ => param6)
    (by decide)).print (by decide +kernel) (by decide +kernel)

example : Prints env .code 45 b!"virtual ~S()\n{\nbody\n}\n" :=
  (C46_destructor (e := env) (l := [.Virtual, .Const]) (is 45 (by decide)) (by decide) specs4 text2.2).print
    (by decide +kernel) (by decide +kernel)

example : Prints env .code 46 b!"~S();\n" :=
  (C46_destructor_fwd (e := env) (is 46 (by decide)) (by decide) rfl (by decide)).print (by decide +kernel) (by decide +kernel)

/-- A pure virtual destructor: the `= 0` comes after the end of the statement. -/
example : Prints env .code 47 b!"virtual ~S();\n = 0;\n" :=
  (C46_virtual_destructor_refuted (e := env) (l := [.Virtual, .Pure]) (t := []) (is 47 (by decide)) (by decide) (by decide) specs13 (by decide)
    (fun h => absurd rfl h) (by decide)).print (by decide +kernel) (by decide +kernel)

/-- An exported function: `exportint`. -/
example : Prints env .code 48 b!"exportint f()\n{\nbody\n}\n" :=
  (C46_export_refuted (e := env) (is 48 (by decide)) rfl text2.1 rfl rfl (by decide) int rfl rfl).print (by decide +kernel) (by decide +kernel)

/-- A pure virtual function: three times `= 0`. -/
example : Prints env .code 49 b!" virtual = 0\nint f() = 0 = 0;\n" :=
  (C46_pure_refuted (e := env) (is 49 (by decide)) (by decide) rfl specs13 (by decide) int rfl rfl rfl rfl).print
    (by decide +kernel) (by decide +kernel)

example : Prints env .code 14 b!"static* " := C47_specifiers specs14 rfl

example : Prints env .code 71 b!"class T static* ..." :=
  ((C47_typename (e := env) (p := 71) (l := [.Static, .Ptr]) (by decide) rfl (by decide) specs14 (.inl rfl)).2 rfl).print
    (by decide +kernel) (by decide +kernel)

example : Prints env .typename 50 b!"int F (  int a ) final " :=
  (C47_typename_function (e := env) (p := 50) (l := [.Final]) (by decide) rfl rfl specs12 (by decide) (by decide) int param6).print
    (by decide +kernel) (by decide +kernel)

/-- Of a function type with attributes only the attributes are printed. -/
example : Prints env .typename 51 b!"[[x]] " :=
  (C47_typename_function_refuted (e := env) (p := 51) (by decide) rfl (by decide) (by decide) (by decide) (by decide)).print
    (by decide +kernel) (by decide +kernel)

example : Prints env .code 52 b!"using T = float[ 3 ][ 4 ];\n" :=
  (C47_using (e := env) (l := [9, 10]) (ts := [_, _]) (is 52 (by decide)) (by decide) (by decide) (by decide) (fun _ => float)
    (fun _ _ => ⟨rfl, by decide, rfl, by decide, rfl⟩) ⟨text9, text10, trivial⟩).print (by decide +kernel) (by decide +kernel)

example : Prints env .code 53 b!"typedef int T;\n" :=
  (C47_typedef (e := env) (l := []) (ts := []) (is 53 (by decide)) (by decide) ((C47_typename_code (is 1 (by decide)) _).2 int) (by decide)
    (fun _ h => absurd rfl h) trivial).print (by decide +kernel) (by decide +kernel)

/-- The typedef of an array: a `;` after every bound. -/
example : Prints env .code 54 b!"typedef float T[ 3 ];[ 4 ];\n" :=
  (C47_typedef_refuted (e := env) (x := 9) (y := 10) (is 54 (by decide)) (by decide) (by decide) ((C47_typename_code (is 11 (by decide)) _).2 float)
    rfl rfl rfl rfl ⟨rfl, by decide, rfl, by decide, rfl⟩ text9 text10).print (by decide +kernel) (by decide +kernel)

theorem next56 : Prints env .var 56 b!"static*  w" :=
  (C47_variable_next (e := env) (p := 56) (sl := [.Static, .Ptr]) (vt := []) (nx := []) (l := []) (ts := []) (by decide) rfl (by decide)
    ⟨by decide, by decide⟩ specs14 (by decide) (fun h => absurd rfl h) trivial (fun h => absurd rfl h) (fun h => absurd rfl h)).print
    (by decide +kernel) (by decide +kernel)

example : Prints env .var 55 b!"static* int v, static*  w;  //c\n" :=
  (C47_variable_specified (e := env) (p := 55) (sl := [.Static, .Ptr]) (st := []) (vt := []) (l := []) (ts := []) (by decide) rfl (by decide)
    (by rintro ⟨h, _⟩; exact h rfl) (.inr (by decide)) (by decide) specs14 (by decide) int (fun h => absurd rfl h) (fun h => absurd rfl h) trivial
    (fun h => absurd rfl h) (fun _ => next56) (by decide)).print (by decide +kernel) (by decide +kernel)

example : Prints env .code 57 b!"import M;\n" := (C48_module (e := env) (is 57 (by decide))).print (by decide +kernel) (by decide +kernel)

example : Prints env .code 58 b!"extern \"C\"\n{\nbody\n}\n" :=
  (C48_extern (e := env) (is 58 (by decide)) (fun _ => text2.1)).print (by decide +kernel) (by decide +kernel)

example : Prints env .code 59 b!"using namespace N;\n" :=
  (C48_using_namespace (e := env) (is 59 (by decide)) rfl).print (by decide +kernel) (by decide +kernel)

/-- `$S` instead of the name, and the name instead of the comment. -/
example : Prints env .code 60 b!"using namespace $S;  N" :=
  (C48_using_namespace_comment_refuted (e := env) (is 60 (by decide)) (by decide) (by decide)).print (by decide +kernel) (by decide +kernel)

example : Prints env .code 61 b!"template<  int a >\nexport union U\n{\nbody\n};\n" :=
  (C48_template (e := env) (is 61 (by decide)) (fun _ => param6) union29).print (by decide +kernel) (by decide +kernel)

example : Prints env .code 62 b!"friend int;\n" :=
  (C48_friend (e := env) (is 62 (by decide)) (by decide) ((C47_typename_code (is 1 (by decide)) _).2 int) (by decide)).print
    (by decide +kernel) (by decide +kernel)

example : Prints env .code 63 b!"#define M body" :=
  (C48_define (e := env) (is 63 (by decide)) rfl (by decide) (by decide)).print (by decide +kernel) (by decide +kernel)

theorem defParams66 : Prints env .defParams 66 b!" y" :=
  (C48_define_param_list (e := env) (p := 66) (l := []) (ts := []) (by decide) (by decide) rfl trivial).print (by decide +kernel) (by decide +kernel)

theorem defParams65 : Prints env .defParams 65 b!" x,  y" :=
  (C48_define_param_list (e := env) (p := 65) (l := [66]) (ts := [_]) (by decide) (by decide) ⟨rfl, by decide, rfl⟩ ⟨defParams66, trivial⟩).print
    (by decide +kernel) (by decide +kernel)

example : Prints env .code 64 b!"#define M( x,  y) body" :=
  (C48_define_params (e := env) (is 64 (by decide)) (by decide) defParams65 (by decide) (by decide)).print (by decide +kernel) (by decide +kernel)

example : Prints env .code 67 b!"#ifdef M\n" :=
  (C48_directive (e := env) (ty := .Preprocess_IfDef) (before := b!"#ifdef ") (after := b!"\n") (is 67 (by decide)) (by decide +kernel)).print (by decide +kernel) (by decide +kernel)

example : Prints env .code 69 b!"#else\n" := (C48_else (e := env) (is 69 (by decide))).print (by decide +kernel) (by decide +kernel)

example : Prints env .code 70 b!"Invalid Code!" := (C48_invalid (e := env) (is 70 (by decide))).print (by decide +kernel) (by decide +kernel)

end Verif.Ser.Demo
