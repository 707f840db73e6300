import Verif.Props.ParseDemo
/-!
# C56: more contents that are valid C++ and are not parsed as what they are
-/
namespace Verif.Parse

/-- C56, what is false: a destructor in a struct is printed without the name of the struct. Its parent is the body, which has none. -/
theorem C56_destructor_refuted : shown parse_struct b!"struct A { ~A(); };" = .ok b!"struct A\n{\n~(null)();\n\n};\n" := by decide +kernel

/-- C56, what is false: `explicit` is dropped. -/
theorem C56_explicit_refuted : shown parse_struct b!"struct A { explicit A(int a); };" = .ok b!"struct A\n{\nA(  int a );\n\n};\n" := by decide +kernel

/-- C56, what is false: an operator of a call, a function with `noexcept`, and a type behind the parameters are refused. -/
theorem C56_function_refuted : shown parse_operator b!"int operator()(int a);" = .stop ∧ shown parse_struct b!"struct A { void f() const noexcept; };" = .stop ∧
    shown parse_global_body b!"auto f() -> int;" = .stop := by decide +kernel

/-- C56, what is false: the dots of a function that takes more arguments get a type. -/
theorem C56_dots_refuted : shown parse_function b!"int f(int a, ...);" = .ok b!"int f( int a,  (null) ...);\n" := by decide +kernel

/-- C56, what is false: a variable that is a pointer to a function gets a second semicolon. -/
theorem C56_function_pointer_refuted : shown parse_variable b!"int (*f)(int a);" = .ok b!"int (*f) (  int a ) ;;\n" := by decide +kernel

end Verif.Parse
