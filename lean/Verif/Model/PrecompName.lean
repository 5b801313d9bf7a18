/-
The C identifiers and the declarations at the head of the C function which lib/SPVM/Builder/src/spvm_precompile.c writes for a
method with the `precompile` attribute.  The text is a list of characters.
-/

namespace SPVM.Precomp

abbrev Name := List Char

/-- What the written C function looks up by name when it starts: a basic type, a class variable, a field (its offset) or a method
of a basic type, spvm_precompile.c 455-572. -/
inductive Ent where
  | basicType (c : Name)
  | classVar (c v : Name)
  | fieldOffset (c f : Name)
  | method (c m : Name)
deriving DecidableEq, Repr

/-- `SPVM_PRECOMPILE_replace_colon_with_under_score`, spvm_precompile.c 5282-5290. -/
def mangle (n : Name) : Name := n.map fun ch => if ch = ':' then '_' else ch

/-- The separator, spvm_precompile.c 5151, 5159, 5246. -/
def sep : Name := ['_', '_', '_', '_']

/-- The labels, spvm_precompile.c 5150, 5158, 5180, 5191. -/
def lBasicType : Name := ['b', 'a', 's', 'i', 'c', '_', 't', 'y', 'p', 'e']
def lClassVar : Name := ['c', 'l', 'a', 's', 's', '_', 'v', 'a', 'r']
def lFieldOffset : Name := ['f', 'i', 'e', 'l', 'd', '_', 'o', 'f', 'f', 's', 'e', 't']
def lMethod : Name := ['m', 'e', 't', 'h', 'o', 'd']

/-- `SPVM_PRECOMPILE_add_basic_type`, `_add_class_var`, `_add_field_offset`, `_add_method`, spvm_precompile.c 5149-5200. -/
def ident : Ent → Name
  | .basicType c => lBasicType ++ (sep ++ (mangle c ++ (sep ++ [])))
  | .classVar c v => lClassVar ++ (sep ++ (mangle c ++ (sep ++ (mangle v ++ (sep ++ [])))))
  | .fieldOffset c f => lFieldOffset ++ (sep ++ (mangle c ++ (sep ++ (mangle f ++ (sep ++ [])))))
  | .method c m => lMethod ++ (sep ++ (mangle c ++ (sep ++ (mangle m ++ (sep ++ [])))))

/-- `strstr(hay, needle) != NULL`, spvm_precompile.c 5274. -/
def strstr : Name → Name → Bool
  | [], needle => needle.isEmpty
  | ch :: hay, needle => needle.isPrefixOf (ch :: hay) || strstr hay needle

/-- The names given to the lookup function, between quotes: spvm_precompile.c 471-473, 500-504, 531-535, 561-565. -/
def argsText : List Name → Name
  | [] => []
  | [a] => '"' :: (a ++ '"' :: [])
  | a :: as => '"' :: (a ++ '"' :: (", ".toList ++ argsText as))

/-- The text of one lookup, spvm_precompile.c 463-480 (basic types), 492-510 (class variables), 523-541 (field offsets),
553-571 (methods): `kind` is the C type of the variable, `init` its first value and the beginning of the test, `pre` and `post` the
characters around the identifier in the test, `test` the rest of the test, `fn` the function of spvm_implement.h called. -/
def lookupText (kind init : Name) (pre post : Char) (test fn : Name) (args : List Name) (id : Name) : Name :=
  kind ++ ' ' :: (id ++ ' ' :: (init ++ pre :: (id ++ post :: (test ++ ' ' :: (id ++ ' ' :: (fn ++ (argsText args ++
    ", &error_id);\n    if (error_id) {\n      goto END_OF_METHOD;\n    }\n  }\n".toList)))))))

/-- The text written for one entity, spvm_precompile.c 463-480, 492-510, 523-541, 553-571. -/
def declText (e : Ent) : Name :=
  match e with
  | .basicType c =>
    lookupText "  void*".toList "= NULL;\n  if (".toList '!' ')' " {\n   ".toList
      "= SPVM_IMPLEMENT_GET_BASIC_TYPE_BY_NAME(env, stack, ".toList [c] (ident e)
  | .classVar c v =>
    lookupText "  void*".toList "= NULL;\n  if (".toList '!' ')' " {\n   ".toList
      "= SPVM_IMPLEMENT_GET_CLASS_VAR_BY_NAME(env, stack, ".toList [c, v] (ident e)
  | .fieldOffset c f =>
    lookupText "  int32_t".toList "= -1;\n  if ".toList '(' ' ' "< 0) {\n   ".toList
      "= SPVM_IMPLEMENT_GET_FIELD_OFFSET_BY_NAME(env, stack, ".toList [c, f] (ident e)
  | .method c m =>
    lookupText "  void*".toList "= NULL;\n  if (".toList '!' ')' " {\n   ".toList
      "= SPVM_IMPLEMENT_GET_METHOD_BY_NAME(env, stack, ".toList [c, m] (ident e)

/-- The text of a list of lookups. -/
def declsText (ds : List Ent) : Name := ds.flatMap declText

/-- One `if (!found)`: `SPVM_PRECOMPILE_contains_access_id` searches the text written since `string_buffer_begin_offset`,
spvm_precompile.c 460-461, 489-491, 520-522, 550-552, 5242-5280. -/
def declare (ds : List Ent) (e : Ent) : List Ent :=
  if strstr (declsText ds) (ident e) then ds else ds ++ [e]

/-- What one operation code mentions: the entities of spvm_precompile.c 333-452 in the order in which 455-572 takes them. -/
abbrev Mention := List Ent

/-- The first loop over the operation codes, spvm_precompile.c 321-575: the lookups written at the head of the function. -/
def decls (ms : List Mention) : List Ent := ms.flatten.foldl declare []

/-- The name of the C function, `SPVM_PRECOMPILE_build_method_declaration`, spvm_precompile.c 96-115. -/
def symbol (c m : Name) : Name := "SPVMPRECOMPILE__".toList ++ (mangle c ++ ("__".toList ++ mangle m))

end SPVM.Precomp
