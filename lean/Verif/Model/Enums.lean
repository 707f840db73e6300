import Verif.Model.Bytes
/-!
# Enumerations and their spellings

Transcribed from base/components/gen/{especifier,eoperator,etoktype,ecodetypes}.hpp (constructors drop the `Spec_`, `Op_`,
`Tok_`, `CT_` prefixes). Enumerators are in the order of the C++ enums, so `toCtorIdx` is the numeric value.
-/
namespace Verif

/-- especifier.hpp `enum Specifier`. -/
inductive Specifier where
  | Invalid
  | Consteval
  | Constexpr
  | Constinit
  | Explicit
  | External_Linkage
  | ForceInline
  | Global
  | Inline
  | Internal_Linkage
  | Local_Persist
  | Mutable
  | NeverInline
  | Ptr
  | Ref
  | Register
  | Restrict
  | RValue
  | Static
  | Thread_Local
  | Virtual
  | Const
  | Final
  | NoExceptions
  | Override
  | Pure
  | Delete
  | Volatile
  deriving Repr, DecidableEq

/-- Every enumerator, in declaration order. -/
def Specifier.all : List Specifier := [
  .Invalid, .Consteval, .Constexpr, .Constinit, .Explicit, .External_Linkage,
  .ForceInline, .Global, .Inline, .Internal_Linkage, .Local_Persist, .Mutable,
  .NeverInline, .Ptr, .Ref, .Register, .Restrict, .RValue,
  .Static, .Thread_Local, .Virtual, .Const, .Final, .NoExceptions,
  .Override, .Pure, .Delete, .Volatile]

/-- especifier.hpp 42 `spec_to_str`. -/
def specToStr : Specifier → Bytes
  | .Invalid => b!"INVALID"
  | .Consteval => b!"consteval"
  | .Constexpr => b!"constexpr"
  | .Constinit => b!"constinit"
  | .Explicit => b!"explicit"
  | .External_Linkage => b!"extern"
  | .ForceInline => b!"forceinline"
  | .Global => b!"global"
  | .Inline => b!"inline"
  | .Internal_Linkage => b!"internal"
  | .Local_Persist => b!"local_persist"
  | .Mutable => b!"mutable"
  | .NeverInline => b!"neverinline"
  | .Ptr => b!"*"
  | .Ref => b!"&"
  | .Register => b!"register"
  | .Restrict => b!"restrict"
  | .RValue => b!"&&"
  | .Static => b!"static"
  | .Thread_Local => b!"thread_local"
  | .Virtual => b!"virtual"
  | .Const => b!"const"
  | .Final => b!"final"
  | .NoExceptions => b!"noexcept"
  | .Override => b!"override"
  | .Pure => b!"= 0"
  | .Delete => b!"= delete"
  | .Volatile => b!"volatile"

/-- eoperator.hpp `enum Operator`. -/
inductive Operator where
  | Invalid
  | Assign
  | Assign_Add
  | Assign_Subtract
  | Assign_Multiply
  | Assign_Divide
  | Assign_Modulo
  | Assign_BAnd
  | Assign_BOr
  | Assign_BXOr
  | Assign_LShift
  | Assign_RShift
  | Increment
  | Decrement
  | Unary_Plus
  | Unary_Minus
  | UnaryNot
  | Add
  | Subtract
  | Multiply
  | Divide
  | Modulo
  | BNot
  | BAnd
  | BOr
  | BXOr
  | LShift
  | RShift
  | LAnd
  | LOr
  | LEqual
  | LNot
  | Lesser
  | Greater
  | LesserEqual
  | GreaterEqual
  | Subscript
  | Indirection
  | AddressOf
  | MemberOfPointer
  | PtrToMemOfPtr
  | FunctionCall
  | Comma
  | New
  | NewArray
  | Delete
  | DeleteArray
  deriving Repr, DecidableEq

/-- Every enumerator, in declaration order. -/
def Operator.all : List Operator := [
  .Invalid, .Assign, .Assign_Add, .Assign_Subtract, .Assign_Multiply, .Assign_Divide,
  .Assign_Modulo, .Assign_BAnd, .Assign_BOr, .Assign_BXOr, .Assign_LShift, .Assign_RShift,
  .Increment, .Decrement, .Unary_Plus, .Unary_Minus, .UnaryNot, .Add,
  .Subtract, .Multiply, .Divide, .Modulo, .BNot, .BAnd,
  .BOr, .BXOr, .LShift, .RShift, .LAnd, .LOr,
  .LEqual, .LNot, .Lesser, .Greater, .LesserEqual, .GreaterEqual,
  .Subscript, .Indirection, .AddressOf, .MemberOfPointer, .PtrToMemOfPtr, .FunctionCall,
  .Comma, .New, .NewArray, .Delete, .DeleteArray]

/-- eoperator.hpp 61 `operator_to_str`. -/
def operatorToStr : Operator → Bytes
  | .Invalid => b!"INVALID"
  | .Assign => b!"="
  | .Assign_Add => b!"+="
  | .Assign_Subtract => b!"-="
  | .Assign_Multiply => b!"*="
  | .Assign_Divide => b!"/="
  | .Assign_Modulo => b!"%="
  | .Assign_BAnd => b!"&="
  | .Assign_BOr => b!"|="
  | .Assign_BXOr => b!"^="
  | .Assign_LShift => b!"<<="
  | .Assign_RShift => b!">>="
  | .Increment => b!"++"
  | .Decrement => b!"--"
  | .Unary_Plus => b!"+"
  | .Unary_Minus => b!"-"
  | .UnaryNot => b!"!"
  | .Add => b!"+"
  | .Subtract => b!"-"
  | .Multiply => b!"*"
  | .Divide => b!"/"
  | .Modulo => b!"%"
  | .BNot => b!"~"
  | .BAnd => b!"&"
  | .BOr => b!"|"
  | .BXOr => b!"^"
  | .LShift => b!"<<"
  | .RShift => b!">>"
  | .LAnd => b!"&&"
  | .LOr => b!"||"
  | .LEqual => b!"=="
  | .LNot => b!"!="
  | .Lesser => b!"<"
  | .Greater => b!">"
  | .LesserEqual => b!"<="
  | .GreaterEqual => b!">="
  | .Subscript => b!"[]"
  | .Indirection => b!"*"
  | .AddressOf => b!"&"
  | .MemberOfPointer => b!"->"
  | .PtrToMemOfPtr => b!"->*"
  | .FunctionCall => b!"()"
  | .Comma => b!","
  | .New => b!"new"
  | .NewArray => b!"new[]"
  | .Delete => b!"delete"
  | .DeleteArray => b!"delete[]"

/-- etoktype.hpp `enum TokType`. -/
inductive TokType where
  | Invalid
  | Access_Private
  | Access_Protected
  | Access_Public
  | Access_MemberSymbol
  | Access_StaticSymbol
  | Ampersand
  | Ampersand_DBL
  | Assign_Classifer
  | Attribute_Open
  | Attribute_Close
  | BraceCurly_Open
  | BraceCurly_Close
  | BraceSquare_Open
  | BraceSquare_Close
  | Paren_Open
  | Paren_Close
  | Comment
  | Comment_End
  | Comment_Start
  | Char
  | Comma
  | Decl_Class
  | Decl_GNU_Attribute
  | Decl_MSVC_Attribute
  | Decl_Enum
  | Decl_Extern_Linkage
  | Decl_Friend
  | Decl_Module
  | Decl_Namespace
  | Decl_Operator
  | Decl_Struct
  | Decl_Template
  | Decl_Typedef
  | Decl_Using
  | Decl_Union
  | Identifier
  | Module_Import
  | Module_Export
  | NewLine
  | Number
  | Operator
  | Preprocess_Hash
  | Preprocess_Define
  | Preprocess_Define_Param
  | Preprocess_If
  | Preprocess_IfDef
  | Preprocess_IfNotDef
  | Preprocess_ElIf
  | Preprocess_Else
  | Preprocess_EndIf
  | Preprocess_Include
  | Preprocess_Pragma
  | Preprocess_Content
  | Preprocess_Macro_Expr
  | Preprocess_Macro_Stmt
  | Preprocess_Macro_Typename
  | Preprocess_Unsupported
  | Spec_Alignas
  | Spec_Const
  | Spec_Consteval
  | Spec_Constexpr
  | Spec_Constinit
  | Spec_Explicit
  | Spec_Extern
  | Spec_Final
  | Spec_ForceInline
  | Spec_Global
  | Spec_Inline
  | Spec_Internal_Linkage
  | Spec_LocalPersist
  | Spec_Mutable
  | Spec_NeverInline
  | Spec_Override
  | Spec_Restrict
  | Spec_Static
  | Spec_ThreadLocal
  | Spec_Volatile
  | Spec_Virtual
  | Star
  | Statement_End
  | StaticAssert
  | String
  | Type_Typename
  | Type_Unsigned
  | Type_Signed
  | Type_Short
  | Type_Long
  | Type_bool
  | Type_char
  | Type_int
  | Type_double
  | Type_MS_int8
  | Type_MS_int16
  | Type_MS_int32
  | Type_MS_int64
  | Type_MS_W64
  | Varadic_Argument
  | __Attributes_Start
  | Attribute_GEN_API
  deriving Repr, DecidableEq

/-- Every enumerator, in declaration order. -/
def TokType.all : List TokType := [
  .Invalid, .Access_Private, .Access_Protected, .Access_Public, .Access_MemberSymbol, .Access_StaticSymbol,
  .Ampersand, .Ampersand_DBL, .Assign_Classifer, .Attribute_Open, .Attribute_Close, .BraceCurly_Open,
  .BraceCurly_Close, .BraceSquare_Open, .BraceSquare_Close, .Paren_Open, .Paren_Close, .Comment,
  .Comment_End, .Comment_Start, .Char, .Comma, .Decl_Class, .Decl_GNU_Attribute,
  .Decl_MSVC_Attribute, .Decl_Enum, .Decl_Extern_Linkage, .Decl_Friend, .Decl_Module, .Decl_Namespace,
  .Decl_Operator, .Decl_Struct, .Decl_Template, .Decl_Typedef, .Decl_Using, .Decl_Union,
  .Identifier, .Module_Import, .Module_Export, .NewLine, .Number, .Operator,
  .Preprocess_Hash, .Preprocess_Define, .Preprocess_Define_Param, .Preprocess_If, .Preprocess_IfDef, .Preprocess_IfNotDef,
  .Preprocess_ElIf, .Preprocess_Else, .Preprocess_EndIf, .Preprocess_Include, .Preprocess_Pragma, .Preprocess_Content,
  .Preprocess_Macro_Expr, .Preprocess_Macro_Stmt, .Preprocess_Macro_Typename, .Preprocess_Unsupported, .Spec_Alignas, .Spec_Const,
  .Spec_Consteval, .Spec_Constexpr, .Spec_Constinit, .Spec_Explicit, .Spec_Extern, .Spec_Final,
  .Spec_ForceInline, .Spec_Global, .Spec_Inline, .Spec_Internal_Linkage, .Spec_LocalPersist, .Spec_Mutable,
  .Spec_NeverInline, .Spec_Override, .Spec_Restrict, .Spec_Static, .Spec_ThreadLocal, .Spec_Volatile,
  .Spec_Virtual, .Star, .Statement_End, .StaticAssert, .String, .Type_Typename,
  .Type_Unsigned, .Type_Signed, .Type_Short, .Type_Long, .Type_bool, .Type_char,
  .Type_int, .Type_double, .Type_MS_int8, .Type_MS_int16, .Type_MS_int32, .Type_MS_int64,
  .Type_MS_W64, .Varadic_Argument, .__Attributes_Start, .Attribute_GEN_API]

/-- etoktype.hpp 115 `toktype_to_str`. -/
def toktypeToStr : TokType → Bytes
  | .Invalid => b!"__invalid__"
  | .Access_Private => b!"private"
  | .Access_Protected => b!"protected"
  | .Access_Public => b!"public"
  | .Access_MemberSymbol => b!"."
  | .Access_StaticSymbol => b!"::"
  | .Ampersand => b!"&"
  | .Ampersand_DBL => b!"&&"
  | .Assign_Classifer => b!":"
  | .Attribute_Open => b!"[["
  | .Attribute_Close => b!"]]"
  | .BraceCurly_Open => b!"{"
  | .BraceCurly_Close => b!"}"
  | .BraceSquare_Open => b!"["
  | .BraceSquare_Close => b!"]"
  | .Paren_Open => b!"("
  | .Paren_Close => b!")"
  | .Comment => b!"__comment__"
  | .Comment_End => b!"__comment_end__"
  | .Comment_Start => b!"__comment_start__"
  | .Char => b!"__character__"
  | .Comma => b!","
  | .Decl_Class => b!"class"
  | .Decl_GNU_Attribute => b!"__attribute__"
  | .Decl_MSVC_Attribute => b!"__declspec"
  | .Decl_Enum => b!"enum"
  | .Decl_Extern_Linkage => b!"extern"
  | .Decl_Friend => b!"friend"
  | .Decl_Module => b!"module"
  | .Decl_Namespace => b!"namespace"
  | .Decl_Operator => b!"operator"
  | .Decl_Struct => b!"struct"
  | .Decl_Template => b!"template"
  | .Decl_Typedef => b!"typedef"
  | .Decl_Using => b!"using"
  | .Decl_Union => b!"union"
  | .Identifier => b!"__identifier__"
  | .Module_Import => b!"import"
  | .Module_Export => b!"export"
  | .NewLine => b!"__new_line__"
  | .Number => b!"__number__"
  | .Operator => b!"__operator__"
  | .Preprocess_Hash => b!"#"
  | .Preprocess_Define => b!"define"
  | .Preprocess_Define_Param => b!"__define_param__"
  | .Preprocess_If => b!"if"
  | .Preprocess_IfDef => b!"ifdef"
  | .Preprocess_IfNotDef => b!"ifndef"
  | .Preprocess_ElIf => b!"elif"
  | .Preprocess_Else => b!"else"
  | .Preprocess_EndIf => b!"endif"
  | .Preprocess_Include => b!"include"
  | .Preprocess_Pragma => b!"pragma"
  | .Preprocess_Content => b!"__macro_content__"
  | .Preprocess_Macro_Expr => b!"__macro_expression__"
  | .Preprocess_Macro_Stmt => b!"__macro_statment__"
  | .Preprocess_Macro_Typename => b!"__macro_typename__"
  | .Preprocess_Unsupported => b!"__unsupported__"
  | .Spec_Alignas => b!"alignas"
  | .Spec_Const => b!"const"
  | .Spec_Consteval => b!"consteval"
  | .Spec_Constexpr => b!"constexpr"
  | .Spec_Constinit => b!"constinit"
  | .Spec_Explicit => b!"explicit"
  | .Spec_Extern => b!"extern"
  | .Spec_Final => b!"final"
  | .Spec_ForceInline => b!"forceinline"
  | .Spec_Global => b!"global"
  | .Spec_Inline => b!"inline"
  | .Spec_Internal_Linkage => b!"internal"
  | .Spec_LocalPersist => b!"local_persist"
  | .Spec_Mutable => b!"mutable"
  | .Spec_NeverInline => b!"neverinline"
  | .Spec_Override => b!"override"
  | .Spec_Restrict => b!"restrict"
  | .Spec_Static => b!"static"
  | .Spec_ThreadLocal => b!"thread_local"
  | .Spec_Volatile => b!"volatile"
  | .Spec_Virtual => b!"virtual"
  | .Star => b!"*"
  | .Statement_End => b!";"
  | .StaticAssert => b!"static_assert"
  | .String => b!"__string__"
  | .Type_Typename => b!"typename"
  | .Type_Unsigned => b!"unsigned"
  | .Type_Signed => b!"signed"
  | .Type_Short => b!"short"
  | .Type_Long => b!"long"
  | .Type_bool => b!"bool"
  | .Type_char => b!"char"
  | .Type_int => b!"int"
  | .Type_double => b!"double"
  | .Type_MS_int8 => b!"__int8"
  | .Type_MS_int16 => b!"__int16"
  | .Type_MS_int32 => b!"__int32"
  | .Type_MS_int64 => b!"__int64"
  | .Type_MS_W64 => b!"_W64"
  | .Varadic_Argument => b!"..."
  | .__Attributes_Start => b!"__attrib_start__"
  | .Attribute_GEN_API => b!"GEN_API"

/-- ecodetypes.hpp `enum CodeType`. -/
inductive CodeType where
  | Invalid
  | Untyped
  | NewLine
  | Comment
  | Access_Private
  | Access_Protected
  | Access_Public
  | PlatformAttributes
  | Class
  | Class_Fwd
  | Class_Body
  | Constructor
  | Constructor_Fwd
  | Destructor
  | Destructor_Fwd
  | Enum
  | Enum_Fwd
  | Enum_Body
  | Enum_Class
  | Enum_Class_Fwd
  | Execution
  | Export_Body
  | Extern_Linkage
  | Extern_Linkage_Body
  | Friend
  | Function
  | Function_Fwd
  | Function_Body
  | Global_Body
  | Module
  | Namespace
  | Namespace_Body
  | Operator
  | Operator_Fwd
  | Operator_Member
  | Operator_Member_Fwd
  | Operator_Cast
  | Operator_Cast_Fwd
  | Parameters
  | Parameters_Define
  | Preprocess_Define
  | Preprocess_Include
  | Preprocess_If
  | Preprocess_IfDef
  | Preprocess_IfNotDef
  | Preprocess_ElIf
  | Preprocess_Else
  | Preprocess_EndIf
  | Preprocess_Pragma
  | Specifiers
  | Struct
  | Struct_Fwd
  | Struct_Body
  | Template
  | Typedef
  | Typename
  | Union
  | Union_Fwd
  | Union_Body
  | Using
  | Using_Namespace
  | Variable
  deriving Repr, DecidableEq

/-- Every enumerator, in declaration order. -/
def CodeType.all : List CodeType := [
  .Invalid, .Untyped, .NewLine, .Comment, .Access_Private, .Access_Protected,
  .Access_Public, .PlatformAttributes, .Class, .Class_Fwd, .Class_Body, .Constructor,
  .Constructor_Fwd, .Destructor, .Destructor_Fwd, .Enum, .Enum_Fwd, .Enum_Body,
  .Enum_Class, .Enum_Class_Fwd, .Execution, .Export_Body, .Extern_Linkage, .Extern_Linkage_Body,
  .Friend, .Function, .Function_Fwd, .Function_Body, .Global_Body, .Module,
  .Namespace, .Namespace_Body, .Operator, .Operator_Fwd, .Operator_Member, .Operator_Member_Fwd,
  .Operator_Cast, .Operator_Cast_Fwd, .Parameters, .Parameters_Define, .Preprocess_Define, .Preprocess_Include,
  .Preprocess_If, .Preprocess_IfDef, .Preprocess_IfNotDef, .Preprocess_ElIf, .Preprocess_Else, .Preprocess_EndIf,
  .Preprocess_Pragma, .Specifiers, .Struct, .Struct_Fwd, .Struct_Body, .Template,
  .Typedef, .Typename, .Union, .Union_Fwd, .Union_Body, .Using,
  .Using_Namespace, .Variable]

/-- ecodetypes.hpp 76 `codetype_to_str`. -/
def codetypeToStr : CodeType → Bytes
  | .Invalid => b!"Invalid"
  | .Untyped => b!"Untyped"
  | .NewLine => b!"NewLine"
  | .Comment => b!"Comment"
  | .Access_Private => b!"Access_Private"
  | .Access_Protected => b!"Access_Protected"
  | .Access_Public => b!"Access_Public"
  | .PlatformAttributes => b!"PlatformAttributes"
  | .Class => b!"Class"
  | .Class_Fwd => b!"Class_Fwd"
  | .Class_Body => b!"Class_Body"
  | .Constructor => b!"Constructor"
  | .Constructor_Fwd => b!"Constructor_Fwd"
  | .Destructor => b!"Destructor"
  | .Destructor_Fwd => b!"Destructor_Fwd"
  | .Enum => b!"Enum"
  | .Enum_Fwd => b!"Enum_Fwd"
  | .Enum_Body => b!"Enum_Body"
  | .Enum_Class => b!"Enum_Class"
  | .Enum_Class_Fwd => b!"Enum_Class_Fwd"
  | .Execution => b!"Execution"
  | .Export_Body => b!"Export_Body"
  | .Extern_Linkage => b!"Extern_Linkage"
  | .Extern_Linkage_Body => b!"Extern_Linkage_Body"
  | .Friend => b!"Friend"
  | .Function => b!"Function"
  | .Function_Fwd => b!"Function_Fwd"
  | .Function_Body => b!"Function_Body"
  | .Global_Body => b!"Global_Body"
  | .Module => b!"Module"
  | .Namespace => b!"Namespace"
  | .Namespace_Body => b!"Namespace_Body"
  | .Operator => b!"Operator"
  | .Operator_Fwd => b!"Operator_Fwd"
  | .Operator_Member => b!"Operator_Member"
  | .Operator_Member_Fwd => b!"Operator_Member_Fwd"
  | .Operator_Cast => b!"Operator_Cast"
  | .Operator_Cast_Fwd => b!"Operator_Cast_Fwd"
  | .Parameters => b!"Parameters"
  | .Parameters_Define => b!"Parameters_Define"
  | .Preprocess_Define => b!"Preprocess_Define"
  | .Preprocess_Include => b!"Preprocess_Include"
  | .Preprocess_If => b!"Preprocess_If"
  | .Preprocess_IfDef => b!"Preprocess_IfDef"
  | .Preprocess_IfNotDef => b!"Preprocess_IfNotDef"
  | .Preprocess_ElIf => b!"Preprocess_ElIf"
  | .Preprocess_Else => b!"Preprocess_Else"
  | .Preprocess_EndIf => b!"Preprocess_EndIf"
  | .Preprocess_Pragma => b!"Preprocess_Pragma"
  | .Specifiers => b!"Specifiers"
  | .Struct => b!"Struct"
  | .Struct_Fwd => b!"Struct_Fwd"
  | .Struct_Body => b!"Struct_Body"
  | .Template => b!"Template"
  | .Typedef => b!"Typedef"
  | .Typename => b!"Typename"
  | .Union => b!"Union"
  | .Union_Fwd => b!"Union_Fwd"
  | .Union_Body => b!"Union_Body"
  | .Using => b!"Using"
  | .Using_Namespace => b!"Using_Namespace"
  | .Variable => b!"Variable"

/-- ecodetypes.hpp 145 `codetype_to_keyword_str`. -/
def codetypeToKeywordStr : CodeType → Bytes
  | .Invalid => b!"__NA__"
  | .Untyped => b!"__NA__"
  | .NewLine => b!"__NA__"
  | .Comment => b!"//"
  | .Access_Private => b!"private"
  | .Access_Protected => b!"protected"
  | .Access_Public => b!"public"
  | .PlatformAttributes => b!"__NA__"
  | .Class => b!"class"
  | .Class_Fwd => b!"clsss"
  | .Class_Body => b!"__NA__"
  | .Constructor => b!"__NA__"
  | .Constructor_Fwd => b!"__NA__"
  | .Destructor => b!"__NA__"
  | .Destructor_Fwd => b!"__NA__"
  | .Enum => b!"enum"
  | .Enum_Fwd => b!"enum"
  | .Enum_Body => b!"__NA__"
  | .Enum_Class => b!"enum class"
  | .Enum_Class_Fwd => b!"enum class"
  | .Execution => b!"__NA__"
  | .Export_Body => b!"__NA__"
  | .Extern_Linkage => b!"extern"
  | .Extern_Linkage_Body => b!"extern"
  | .Friend => b!"friend"
  | .Function => b!"__NA__"
  | .Function_Fwd => b!"__NA__"
  | .Function_Body => b!"__NA__"
  | .Global_Body => b!"__NA__"
  | .Module => b!"module"
  | .Namespace => b!"namespace"
  | .Namespace_Body => b!"__NA__"
  | .Operator => b!"operator"
  | .Operator_Fwd => b!"operator"
  | .Operator_Member => b!"operator"
  | .Operator_Member_Fwd => b!"operator"
  | .Operator_Cast => b!"operator"
  | .Operator_Cast_Fwd => b!"operator"
  | .Parameters => b!"__NA__"
  | .Parameters_Define => b!"__NA__"
  | .Preprocess_Define => b!"define"
  | .Preprocess_Include => b!"include"
  | .Preprocess_If => b!"if"
  | .Preprocess_IfDef => b!"ifdef"
  | .Preprocess_IfNotDef => b!"ifndef"
  | .Preprocess_ElIf => b!"elif"
  | .Preprocess_Else => b!"else"
  | .Preprocess_EndIf => b!"endif"
  | .Preprocess_Pragma => b!"pragma"
  | .Specifiers => b!"__NA__"
  | .Struct => b!"struct"
  | .Struct_Fwd => b!"struct"
  | .Struct_Body => b!"__NA__"
  | .Template => b!"template"
  | .Typedef => b!"typedef"
  | .Typename => b!"__NA__"
  | .Union => b!"union"
  | .Union_Fwd => b!"union"
  | .Union_Body => b!"__NA__"
  | .Using => b!"using"
  | .Using_Namespace => b!"using namespace"
  | .Variable => b!"__NA__"

end Verif
