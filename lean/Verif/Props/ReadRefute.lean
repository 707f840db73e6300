import Verif.Props.ParseDemo
/-!
# C56: contents that are valid C++ and are not parsed as what they are

Each of these is the reason for a condition in Props/ReadSpec.lean or Props/ReadFnSpec.lean, or for a kind of declaration that is left out there.
-/
namespace Verif.Parse

/-- C56, what is false: a default value with `->` in it ends the process. -/
theorem C56_arrow_refuted : shown parse_function b!"int f(int a = b->c);" = .stop := by decide +kernel

/-- C56, what is false: a default value with `<` in it makes the parser read behind the tokens. -/
theorem C56_less_refuted : shown parse_function b!"int f(int a = b < c);" = .ub := by decide +kernel

/-- C56, what is false: an array without a bound prints as a text that is not parsed any more. -/
theorem C56_bound_refuted : shown parse_variable b!"int a[];" = .ok b!"int a[   ];\n" ∧ shown parse_variable b!"int a[   ];\n" = .stop := by decide +kernel

/-- C56, what is false: `--` becomes `-`. -/
theorem C56_operator_refuted : shown parse_operator b!"A operator--(A a);" = .ok b!"A operator - ( A a);\n" := by decide +kernel

/-- C56, what is false: what stands behind a closing brace that has no opening one is dropped without a message. -/
theorem C56_brace_refuted : shown parse_global_body b!"int a; } int b;" = .ok b!"int a;\n" := by decide +kernel

/-- C56, what is false: a deleted function is not parsed. -/
theorem C56_delete_refuted : shown parse_function b!"int f() = delete;" = .stop := by decide +kernel

/-- C56, what is false: `= default` is dropped. -/
theorem C56_default_refuted : shown parse_struct b!"struct A { A() = default; };" = .ok b!"struct A\n{\nA();\n\n};\n" := by decide +kernel

/-- C56, what is false: printing the code of a struct and parsing the text again gives another text, a line longer. -/
theorem C56_struct_refuted : shown parse_struct b!"struct A { int a; };" = .ok b!"struct A\n{\nint a;\n\n};\n" ∧
    shown parse_struct b!"struct A\n{\nint a;\n\n};\n" = .ok b!"struct A\n{\nint a;\n\n\n};\n" := by decide +kernel

/-- C56, what is false: a function whose parameters have no names is taken for a variable when it stands in a body. -/
theorem C56_unnamed_refuted : shown parse_function b!"int f(int, int);" = .ok b!"int f( int,  int);\n" ∧
    shown parse_global_body b!"int f(int, int);" = .ok b!"int f( int, int  );\n" := by decide +kernel

/-- C56, what is false: a file may not declare an enum with its type. The parser reads a token in front of the first one. -/
theorem C56_enum_refuted : shown parse_global_body b!"enum B : int;" = .ub := by decide +kernel

/-- C56, what is false: the function `A` of a class `AB` is taken for a constructor, and what comes in front of it is missed. -/
theorem C56_prefix_refuted : shown parse_global_body b!"int AB::A();" = .stop ∧ shown parse_global_body b!"int AB::C();" = .ok b!"int AB::C();\n" := by
  decide +kernel

/-- C56, what is false: a variable of a file may not begin with `volatile`, `thread_local` or one of the types of Microsoft's compiler. -/
theorem C56_first_refuted : shown parse_global_body b!"volatile int a;" = .stop ∧ shown parse_global_body b!"thread_local int a;" = .stop ∧
    shown parse_global_body b!"__int64 a;" = .stop ∧ shown parse_variable b!"__int64 a;" = .ok b!"__int64 a;\n" := by decide +kernel

/-- C56, what is false: of a variable declared with its struct the members become bounds of an array, twice. -/
theorem C56_inplace_refuted : shown parse_global_body b!"struct A { int c; } d;" = .ok b!"A d[ int c;\n ][ int c;\n ];\n" := by decide +kernel

/-- C56, what is false: an enum without a name prints as one named `(null)`. -/
theorem C56_unnamed_enum_refuted : shown parse_enum b!"enum { a };" = .ok b!"enum (null)\n{\na\n};\n" := by decide +kernel

/-- C56, what is false: `enum class` loses its `class`. -/
theorem C56_enum_class_refuted : shown parse_enum b!"enum class A { a };" = .ok b!"enum A\n{\na\n};\n" := by decide +kernel

/-- C56, what is false: a comma inside parentheses of an enumerator's value ends the process, and so does an attribute of an enumerator. -/
theorem C56_enumerator_refuted : shown parse_enum b!"enum A { a = f(1, 2) };" = .stop ∧ shown parse_enum b!"enum A { a [[deprecated]], b };" = .stop := by
  decide +kernel

/-- C56, what is false: a using of a qualified name is not parsed, and the alias of a function type gets the word `(null)`. -/
theorem C56_alias_refuted : shown parse_using b!"using A::B;" = .stop ∧
    shown parse_using b!"using A = int (int a);" = .ok b!"using A = int (null) (  int a );\n" := by decide +kernel

/-- C56, what is false: a class with a parent cannot be printed (the call has an argument too many); a struct with one can. -/
theorem C56_parent_refuted : shown parse_class b!"class A : public B { int a; };" = .ub ∧
    shown parse_struct b!"struct A : public B { int a; };" = .ok b!"struct A : public B\n{\nint a;\n\n};\n" := by decide +kernel

/-- C56, what is false: a protected base is printed as a private one; with a second base the first is printed as public, whatever it is, and the second loses
its `private`; a sixth base ends in a write through an arena that is gone. -/
theorem C56_base_access_refuted : shown parse_struct b!"struct A : protected B { };" = .ok b!"struct A : private B\n{\n\n};\n" ∧
    shown parse_struct b!"struct A : private B, private C { };" = .ok b!"struct A : public B\n, C\n{\n\n};\n" ∧
    shown parse_struct b!"struct A : B, C, D, E, F, G { };" = .ub := by decide +kernel

/-- C56, what is false: a union cannot be declared without its members, a semicolon among them becomes a variable called `;` of the type `;`, and
a typedef among them is not parsed. -/
theorem C56_union_refuted : shown parse_union b!"union A;" = .stop ∧ shown parse_union b!"union A { int a; ; };" = .ok b!"union A\n{\nint a;\n; ;;\n\n};\n" ∧
    shown parse_union b!"union A { typedef int a; };" = .stop := by decide +kernel

/-- C56, what is false: a linkage block inside another one is not parsed. -/
theorem C56_linkage_refuted : shown parse_extern_link b!"extern \"C\" { extern \"D\" { } }" = .stop ∧
    shown parse_extern_link b!"extern \"C\" { namespace N { } }" = .ok b!"extern \"C\"\n{\nnamespace N\n{\n\n}\n\n}\n" := by decide +kernel

end Verif.Parse
