/-
The grammar of the SPVM language as it is documented
(lib/SPVM/Document/Language/SyntaxParsing.pm lines 17-545 and 905-930), parse
trees over it and the rules that choose between two trees of the same text.

Nothing here mentions the tables of the parser.  A symbol is a number with a
name; which number stands for which name is only an encoding (the order of
`yytname`, lib/SPVM/Builder/src/spvm_yacc.c 599-650).
-/

namespace SPVM.Parse

/- The tokens (SyntaxParsing.pm 23-29, 55-69, 546-904; spvm_yacc.c 599-650). -/
namespace T
abbrev END : Nat := 0
abbrev CLASS : Nat := 3
abbrev HAS : Nat := 4
abbrev METHOD : Nat := 5
abbrev OUR : Nat := 6
abbrev ENUM : Nat := 7
abbrev MY : Nat := 8
abbrev USE : Nat := 9
abbrev AS : Nat := 10
abbrev REQUIRE : Nat := 11
abbrev ALIAS : Nat := 12
abbrev ALLOW : Nat := 13
abbrev OUTMOST_CLASS : Nat := 14
abbrev MUTABLE : Nat := 15
abbrev ATTRIBUTE : Nat := 16
abbrev MAKE_READ_ONLY : Nat := 17
abbrev INTERFACE : Nat := 18
abbrev EVAL_ERROR_ID : Nat := 19
abbrev ARGS_WIDTH : Nat := 20
abbrev VERSION_DECL : Nat := 21
abbrev IF : Nat := 22
abbrev UNLESS : Nat := 23
abbrev ELSIF : Nat := 24
abbrev ELSE : Nat := 25
abbrev FOR : Nat := 26
abbrev WHILE : Nat := 27
abbrev LAST : Nat := 28
abbrev NEXT : Nat := 29
abbrev SWITCH : Nat := 30
abbrev CASE : Nat := 31
abbrev DEFAULT : Nat := 32
abbrev BREAK : Nat := 33
abbrev EVAL : Nat := 34
abbrev SYMBOL_NAME : Nat := 35
abbrev VAR_NAME : Nat := 36
abbrev CONSTANT : Nat := 37
abbrev EXCEPTION_VAR : Nat := 38
abbrev UNDEF : Nat := 39
abbrev VOID : Nat := 40
abbrev BYTE : Nat := 41
abbrev SHORT : Nat := 42
abbrev INT : Nat := 43
abbrev LONG : Nat := 44
abbrev FLOAT : Nat := 45
abbrev DOUBLE : Nat := 46
abbrev STRING : Nat := 47
abbrev OBJECT : Nat := 48
abbrev TRUE : Nat := 49
abbrev FALSE : Nat := 50
abbrev END_OF_FILE : Nat := 51
abbrev FATCAMMA : Nat := 52
abbrev RW : Nat := 53
abbrev RO : Nat := 54
abbrev WO : Nat := 55
abbrev INIT : Nat := 56
abbrev NEW : Nat := 57
abbrev OF : Nat := 58
abbrev BASIC_TYPE_ID : Nat := 59
abbrev EXTENDS : Nat := 60
abbrev SUPER : Nat := 61
abbrev RETURN : Nat := 62
abbrev WEAKEN : Nat := 63
abbrev DIE : Nat := 64
abbrev WARN : Nat := 65
abbrev PRINT : Nat := 66
abbrev SAY : Nat := 67
abbrev OUTMOST_CLASS_NAME : Nat := 68
abbrev UNWEAKEN : Nat := 69
abbrev LBRACKET : Nat := 70
abbrev LBRACE : Nat := 71
abbrev LPAREN : Nat := 72
abbrev ASSIGN : Nat := 73
abbrev SPECIAL_ASSIGN : Nat := 74
abbrev LOGICAL_OR : Nat := 75
abbrev LOGICAL_AND : Nat := 76
abbrev BIT_OR : Nat := 77
abbrev BIT_XOR : Nat := 78
abbrev BIT_AND : Nat := 79
abbrev NUMEQ : Nat := 80
abbrev NUMNE : Nat := 81
abbrev STREQ : Nat := 82
abbrev STRNE : Nat := 83
abbrev NUMGT : Nat := 84
abbrev NUMGE : Nat := 85
abbrev NUMLT : Nat := 86
abbrev NUMLE : Nat := 87
abbrev STRGT : Nat := 88
abbrev STRGE : Nat := 89
abbrev STRLT : Nat := 90
abbrev STRLE : Nat := 91
abbrev ISA : Nat := 92
abbrev ISA_ERROR : Nat := 93
abbrev IS_TYPE : Nat := 94
abbrev IS_ERROR : Nat := 95
abbrev IS_COMPILE_TYPE : Nat := 96
abbrev NUMERIC_CMP : Nat := 97
abbrev STRING_CMP : Nat := 98
abbrev CAN : Nat := 99
abbrev SHIFT : Nat := 100
abbrev ADD : Nat := 101
abbrev SUB : Nat := 102
abbrev DOT : Nat := 103
abbrev MUL : Nat := 104
abbrev DIVIDE : Nat := 105
abbrev DIVIDE_UNSIGNED_INT : Nat := 106
abbrev DIVIDE_UNSIGNED_LONG : Nat := 107
abbrev MODULO : Nat := 108
abbrev MODULO_UNSIGNED_INT : Nat := 109
abbrev MODULO_UNSIGNED_LONG : Nat := 110
abbrev LOGICAL_NOT : Nat := 111
abbrev BIT_NOT : Nat := 112
abbrev AT : Nat := 113
abbrev REFERENCE : Nat := 114
abbrev DEREFERENCE : Nat := 115
abbrev PLUS : Nat := 116
abbrev MINUS : Nat := 117
abbrev CONVERT : Nat := 118
abbrev SCALAR : Nat := 119
abbrev STRING_LENGTH : Nat := 120
abbrev ISWEAK : Nat := 121
abbrev TYPE_NAME : Nat := 122
abbrev COMPILE_TYPE_NAME : Nat := 123
abbrev DUMP : Nat := 124
abbrev NEW_STRING_LEN : Nat := 125
abbrev IS_READ_ONLY : Nat := 126
abbrev COPY : Nat := 127
abbrev INC : Nat := 128
abbrev DEC : Nat := 129
abbrev ARROW : Nat := 130
abbrev RBRACKET : Nat := 131
abbrev COLON : Nat := 132
abbrev SEMICOLON : Nat := 133
abbrev RBRACE : Nat := 134
abbrev COMMA : Nat := 135
abbrev RPAREN : Nat := 136
end T

/- The nonterminals (SyntaxParsing.pm 30-54; spvm_yacc.c 599-650). -/
namespace N
abbrev grammar : Nat := 138
abbrev field_name : Nat := 139
abbrev method_name : Nat := 140
abbrev class_name : Nat := 141
abbrev qualified_type : Nat := 142
abbrev «type» : Nat := 143
abbrev basic_type : Nat := 144
abbrev ref_type : Nat := 145
abbrev array_type : Nat := 146
abbrev array_type_with_length : Nat := 147
abbrev return_type : Nat := 148
abbrev opt_type_comment : Nat := 149
abbrev type_comment : Nat := 150
abbrev union_type : Nat := 151
abbrev opt_classes : Nat := 152
abbrev classes : Nat := 153
abbrev «class» : Nat := 154
abbrev opt_basic_type : Nat := 155
abbrev opt_extends : Nat := 156
abbrev class_block : Nat := 157
abbrev opt_definitions : Nat := 158
abbrev definitions : Nat := 159
abbrev definition : Nat := 160
abbrev init_statement : Nat := 161
abbrev version_decl : Nat := 162
abbrev «use» : Nat := 163
abbrev «require» : Nat := 164
abbrev class_alias : Nat := 165
abbrev allow : Nat := 166
abbrev «interface» : Nat := 167
abbrev enumeration : Nat := 168
abbrev enumeration_block : Nat := 169
abbrev opt_enumeration_items : Nat := 170
abbrev enumeration_items : Nat := 171
abbrev enumeration_item : Nat := 172
abbrev «our» : Nat := 173
abbrev «has» : Nat := 174
abbrev «method» : Nat := 175
abbrev anon_method : Nat := 176
abbrev opt_args : Nat := 177
abbrev args : Nat := 178
abbrev arg : Nat := 179
abbrev anon_method_fields : Nat := 180
abbrev anon_method_field : Nat := 181
abbrev opt_attributes : Nat := 182
abbrev attributes : Nat := 183
abbrev opt_statements : Nat := 184
abbrev statements : Nat := 185
abbrev statement : Nat := 186
abbrev «die» : Nat := 187
abbrev void_return_operator : Nat := 188
abbrev warn : Nat := 189
abbrev for_statement : Nat := 190
abbrev foreach_statement : Nat := 191
abbrev while_statement : Nat := 192
abbrev switch_statement : Nat := 193
abbrev switch_block : Nat := 194
abbrev opt_case_statements : Nat := 195
abbrev case_statements : Nat := 196
abbrev case_statement : Nat := 197
abbrev default_statement : Nat := 198
abbrev if_require_statement : Nat := 199
abbrev if_statement : Nat := 200
abbrev else_statement : Nat := 201
abbrev block : Nat := 202
abbrev eval_block : Nat := 203
abbrev var_decl : Nat := 204
abbrev «var» : Nat := 205
abbrev opt_operators : Nat := 206
abbrev opt_operator : Nat := 207
abbrev «operator» : Nat := 208
abbrev sequential : Nat := 209
abbrev operators : Nat := 210
abbrev unary_operator : Nat := 211
abbrev array_length : Nat := 212
abbrev inc : Nat := 213
abbrev dec : Nat := 214
abbrev binary_operator : Nat := 215
abbrev arithmetic_operator : Nat := 216
abbrev bit_operator : Nat := 217
abbrev comparison_operator : Nat := 218
abbrev string_concatenation : Nat := 219
abbrev logical_operator : Nat := 220
abbrev type_check : Nat := 221
abbrev type_cast : Nat := 222
abbrev can : Nat := 223
abbrev assign : Nat := 224
abbrev «new» : Nat := 225
abbrev array_init : Nat := 226
abbrev call_method : Nat := 227
abbrev array_access : Nat := 228
abbrev field_access : Nat := 229
abbrev weaken_field : Nat := 230
abbrev unweaken_field : Nat := 231
abbrev isweak_field : Nat := 232
end N

/-- A rule of the grammar: what it defines, its right hand side, and the token
whose precedence the documentation gives to it with `%prec`, when it does. -/
structure Rule where
  lhs : Nat
  rhs : List Nat
  prec : Option Nat := none
deriving DecidableEq, Repr

/-- Rules 0-49 of the documentation. -/
def grammar0 : List Rule := [
  ⟨N.grammar, [N.opt_classes], none⟩,
  ⟨N.field_name, [T.SYMBOL_NAME], none⟩,
  ⟨N.method_name, [T.SYMBOL_NAME], none⟩,
  ⟨N.class_name, [T.SYMBOL_NAME], none⟩,
  ⟨N.qualified_type, [N.«type»], none⟩,
  ⟨N.qualified_type, [T.MUTABLE, N.«type»], none⟩,
  ⟨N.«type», [N.basic_type], none⟩,
  ⟨N.«type», [N.array_type], none⟩,
  ⟨N.«type», [N.ref_type], none⟩,
  ⟨N.basic_type, [T.SYMBOL_NAME], none⟩,
  ⟨N.basic_type, [T.BYTE], none⟩,
  ⟨N.basic_type, [T.SHORT], none⟩,
  ⟨N.basic_type, [T.INT], none⟩,
  ⟨N.basic_type, [T.LONG], none⟩,
  ⟨N.basic_type, [T.FLOAT], none⟩,
  ⟨N.basic_type, [T.DOUBLE], none⟩,
  ⟨N.basic_type, [T.OBJECT], none⟩,
  ⟨N.basic_type, [T.STRING], none⟩,
  ⟨N.ref_type, [N.basic_type, T.MUL], none⟩,
  ⟨N.array_type, [N.basic_type, T.LBRACKET, T.RBRACKET], none⟩,
  ⟨N.array_type, [N.array_type, T.LBRACKET, T.RBRACKET], none⟩,
  ⟨N.array_type_with_length, [N.basic_type, T.LBRACKET, N.«operator», T.RBRACKET], none⟩,
  ⟨N.array_type_with_length, [N.array_type, T.LBRACKET, N.«operator», T.RBRACKET], none⟩,
  ⟨N.return_type, [N.qualified_type, N.opt_type_comment], none⟩,
  ⟨N.return_type, [T.VOID], none⟩,
  ⟨N.opt_type_comment, [], none⟩,
  ⟨N.opt_type_comment, [N.type_comment], none⟩,
  ⟨N.type_comment, [T.OF, N.union_type], none⟩,
  ⟨N.union_type, [N.union_type, T.BIT_OR, N.«type»], none⟩,
  ⟨N.union_type, [N.«type»], none⟩,
  ⟨N.opt_classes, [], none⟩,
  ⟨N.opt_classes, [N.classes], none⟩,
  ⟨N.classes, [N.classes, N.«class»], none⟩,
  ⟨N.classes, [N.«class»], none⟩,
  ⟨N.«class», [T.CLASS, N.opt_basic_type, N.opt_extends, N.class_block, T.END_OF_FILE], none⟩,
  ⟨N.«class», [T.CLASS, N.opt_basic_type, N.opt_extends, T.COLON, N.opt_attributes, N.class_block, T.END_OF_FILE], none⟩,
  ⟨N.«class», [T.CLASS, N.opt_basic_type, N.opt_extends, T.SEMICOLON, T.END_OF_FILE], none⟩,
  ⟨N.«class», [T.CLASS, N.opt_basic_type, N.opt_extends, T.COLON, N.opt_attributes, T.SEMICOLON, T.END_OF_FILE], none⟩,
  ⟨N.opt_basic_type, [], none⟩,
  ⟨N.opt_basic_type, [N.basic_type], none⟩,
  ⟨N.opt_extends, [], none⟩,
  ⟨N.opt_extends, [T.EXTENDS, N.basic_type], none⟩,
  ⟨N.class_block, [T.LBRACE, N.opt_definitions, T.RBRACE], none⟩,
  ⟨N.opt_definitions, [], none⟩,
  ⟨N.opt_definitions, [N.definitions], none⟩,
  ⟨N.definitions, [N.definitions, N.definition], none⟩,
  ⟨N.definitions, [N.definition], none⟩,
  ⟨N.definition, [N.version_decl], none⟩,
  ⟨N.definition, [N.«use»], none⟩,
  ⟨N.definition, [N.class_alias], none⟩]

/-- Rules 50-99 of the documentation. -/
def grammar1 : List Rule := [
  ⟨N.definition, [N.allow], none⟩,
  ⟨N.definition, [N.«interface»], none⟩,
  ⟨N.definition, [N.init_statement], none⟩,
  ⟨N.definition, [N.enumeration], none⟩,
  ⟨N.definition, [N.«our»], none⟩,
  ⟨N.definition, [N.«has», T.SEMICOLON], none⟩,
  ⟨N.definition, [N.«method»], none⟩,
  ⟨N.init_statement, [T.INIT, N.block], none⟩,
  ⟨N.version_decl, [T.VERSION_DECL, T.CONSTANT, T.SEMICOLON], none⟩,
  ⟨N.«use», [T.USE, N.basic_type, T.SEMICOLON], none⟩,
  ⟨N.«use», [T.USE, N.basic_type, T.AS, N.class_name, T.SEMICOLON], none⟩,
  ⟨N.«require», [T.REQUIRE, N.basic_type], none⟩,
  ⟨N.class_alias, [T.ALIAS, N.basic_type, T.AS, N.class_name, T.SEMICOLON], none⟩,
  ⟨N.allow, [T.ALLOW, N.basic_type, T.SEMICOLON], none⟩,
  ⟨N.«interface», [T.INTERFACE, N.basic_type, T.SEMICOLON], none⟩,
  ⟨N.enumeration, [N.opt_attributes, T.ENUM, N.enumeration_block], none⟩,
  ⟨N.enumeration_block, [T.LBRACE, N.opt_enumeration_items, T.RBRACE], none⟩,
  ⟨N.opt_enumeration_items, [], none⟩,
  ⟨N.opt_enumeration_items, [N.enumeration_items], none⟩,
  ⟨N.enumeration_items, [N.enumeration_items, T.COMMA, N.enumeration_item], none⟩,
  ⟨N.enumeration_items, [N.enumeration_items, T.COMMA], none⟩,
  ⟨N.enumeration_items, [N.enumeration_item], none⟩,
  ⟨N.enumeration_item, [N.method_name], none⟩,
  ⟨N.enumeration_item, [N.method_name, T.ASSIGN, T.CONSTANT], none⟩,
  ⟨N.«our», [T.OUR, T.VAR_NAME, T.COLON, N.opt_attributes, N.qualified_type, N.opt_type_comment, T.SEMICOLON], none⟩,
  ⟨N.«has», [T.HAS, N.field_name, T.COLON, N.opt_attributes, N.qualified_type, N.opt_type_comment], none⟩,
  ⟨N.«method», [N.opt_attributes, T.METHOD, N.method_name, T.COLON, N.return_type, T.LPAREN, N.opt_args, T.RPAREN, N.block], none⟩,
  ⟨N.«method», [N.opt_attributes, T.METHOD, N.method_name, T.COLON, N.return_type, T.LPAREN, N.opt_args, T.RPAREN, T.SEMICOLON], none⟩,
  ⟨N.«method», [N.opt_attributes, T.METHOD, T.COLON, N.return_type, T.LPAREN, N.opt_args, T.RPAREN, N.block], none⟩,
  ⟨N.«method», [N.opt_attributes, T.METHOD, T.COLON, N.return_type, T.LPAREN, N.opt_args, T.RPAREN, T.SEMICOLON], none⟩,
  ⟨N.anon_method, [N.opt_attributes, T.METHOD, T.COLON, N.return_type, T.LPAREN, N.opt_args, T.RPAREN, N.block], none⟩,
  ⟨N.anon_method, [T.LBRACKET, N.anon_method_fields, T.RBRACKET, N.opt_attributes, T.METHOD, T.COLON, N.return_type, T.LPAREN, N.opt_args, T.RPAREN, N.block], none⟩,
  ⟨N.opt_args, [], none⟩,
  ⟨N.opt_args, [N.args], none⟩,
  ⟨N.args, [N.args, T.COMMA, N.arg], none⟩,
  ⟨N.args, [N.args, T.COMMA], none⟩,
  ⟨N.args, [N.arg], none⟩,
  ⟨N.arg, [N.«var», T.COLON, N.qualified_type, N.opt_type_comment], none⟩,
  ⟨N.arg, [N.«var», T.COLON, N.qualified_type, N.opt_type_comment, T.ASSIGN, N.«operator»], none⟩,
  ⟨N.anon_method_fields, [N.anon_method_fields, T.COMMA, N.anon_method_field], none⟩,
  ⟨N.anon_method_fields, [N.anon_method_fields, T.COMMA], none⟩,
  ⟨N.anon_method_fields, [N.anon_method_field], none⟩,
  ⟨N.anon_method_field, [T.HAS, N.field_name, T.COLON, N.opt_attributes, N.qualified_type, N.opt_type_comment], none⟩,
  ⟨N.anon_method_field, [T.HAS, N.field_name, T.COLON, N.opt_attributes, N.qualified_type, N.opt_type_comment, T.ASSIGN, N.«operator»], none⟩,
  ⟨N.anon_method_field, [N.«var», T.COLON, N.opt_attributes, N.qualified_type, N.opt_type_comment], none⟩,
  ⟨N.anon_method_field, [N.«var», T.COLON, N.opt_attributes, N.qualified_type, N.opt_type_comment, T.ASSIGN, N.«operator»], none⟩,
  ⟨N.opt_attributes, [], none⟩,
  ⟨N.opt_attributes, [N.attributes], none⟩,
  ⟨N.attributes, [N.attributes, T.ATTRIBUTE], none⟩,
  ⟨N.attributes, [T.ATTRIBUTE], none⟩]

/-- Rules 100-149 of the documentation. -/
def grammar2 : List Rule := [
  ⟨N.opt_statements, [], none⟩,
  ⟨N.opt_statements, [N.statements], none⟩,
  ⟨N.statements, [N.statements, N.statement], none⟩,
  ⟨N.statements, [N.statement], none⟩,
  ⟨N.statement, [N.if_statement], none⟩,
  ⟨N.statement, [N.for_statement], none⟩,
  ⟨N.statement, [N.foreach_statement], none⟩,
  ⟨N.statement, [N.while_statement], none⟩,
  ⟨N.statement, [N.block], none⟩,
  ⟨N.statement, [N.switch_statement], none⟩,
  ⟨N.statement, [N.case_statement], none⟩,
  ⟨N.statement, [N.default_statement], none⟩,
  ⟨N.statement, [N.eval_block], none⟩,
  ⟨N.statement, [N.if_require_statement], none⟩,
  ⟨N.statement, [T.LAST, T.SEMICOLON], none⟩,
  ⟨N.statement, [T.NEXT, T.SEMICOLON], none⟩,
  ⟨N.statement, [T.BREAK, T.SEMICOLON], none⟩,
  ⟨N.statement, [T.RETURN, T.SEMICOLON], none⟩,
  ⟨N.statement, [T.RETURN, N.«operator», T.SEMICOLON], none⟩,
  ⟨N.statement, [N.«operator», T.SEMICOLON], none⟩,
  ⟨N.statement, [N.void_return_operator, T.SEMICOLON], none⟩,
  ⟨N.statement, [T.SEMICOLON], none⟩,
  ⟨N.statement, [N.«die», T.SEMICOLON], none⟩,
  ⟨N.«die», [T.DIE, N.«operator»], none⟩,
  ⟨N.«die», [T.DIE], none⟩,
  ⟨N.«die», [T.DIE, N.«type», N.«operator»], none⟩,
  ⟨N.«die», [T.DIE, N.«type»], none⟩,
  ⟨N.«die», [T.DIE, N.«operator», T.COMMA, N.«operator»], none⟩,
  ⟨N.void_return_operator, [N.warn], none⟩,
  ⟨N.void_return_operator, [T.PRINT, N.«operator»], none⟩,
  ⟨N.void_return_operator, [T.SAY, N.«operator»], none⟩,
  ⟨N.void_return_operator, [N.weaken_field], none⟩,
  ⟨N.void_return_operator, [N.unweaken_field], none⟩,
  ⟨N.void_return_operator, [T.MAKE_READ_ONLY, N.«operator»], none⟩,
  ⟨N.warn, [T.WARN, N.«operator»], none⟩,
  ⟨N.warn, [T.WARN], none⟩,
  ⟨N.for_statement, [T.FOR, T.LPAREN, N.opt_operator, T.SEMICOLON, N.«operator», T.SEMICOLON, N.opt_operator, T.RPAREN, N.block], none⟩,
  ⟨N.foreach_statement, [T.FOR, N.var_decl, T.LPAREN, T.AT, N.«operator», T.RPAREN, N.block], none⟩,
  ⟨N.foreach_statement, [T.FOR, N.var_decl, T.LPAREN, T.AT, T.LBRACE, N.«operator», T.RBRACE, T.RPAREN, N.block], none⟩,
  ⟨N.while_statement, [T.WHILE, T.LPAREN, N.«operator», T.RPAREN, N.block], none⟩,
  ⟨N.switch_statement, [T.SWITCH, T.LPAREN, N.«operator», T.RPAREN, N.switch_block], none⟩,
  ⟨N.switch_block, [T.LBRACE, N.opt_case_statements, T.RBRACE], none⟩,
  ⟨N.switch_block, [T.LBRACE, N.opt_case_statements, N.default_statement, T.RBRACE], none⟩,
  ⟨N.opt_case_statements, [], none⟩,
  ⟨N.opt_case_statements, [N.case_statements], none⟩,
  ⟨N.case_statements, [N.case_statements, N.case_statement], none⟩,
  ⟨N.case_statements, [N.case_statement], none⟩,
  ⟨N.case_statement, [T.CASE, N.«operator», T.COLON, N.block], none⟩,
  ⟨N.case_statement, [T.CASE, N.«operator», T.COLON], none⟩,
  ⟨N.default_statement, [T.DEFAULT, T.COLON, N.block], none⟩]

/-- Rules 150-199 of the documentation. -/
def grammar3 : List Rule := [
  ⟨N.default_statement, [T.DEFAULT, T.COLON], none⟩,
  ⟨N.if_require_statement, [T.IF, T.LPAREN, N.«require», T.RPAREN, N.block], none⟩,
  ⟨N.if_require_statement, [T.IF, T.LPAREN, N.«require», T.RPAREN, N.block, T.ELSE, N.block], none⟩,
  ⟨N.if_statement, [T.IF, T.LPAREN, N.«operator», T.RPAREN, N.block, N.else_statement], none⟩,
  ⟨N.if_statement, [T.UNLESS, T.LPAREN, N.«operator», T.RPAREN, N.block, N.else_statement], none⟩,
  ⟨N.else_statement, [], none⟩,
  ⟨N.else_statement, [T.ELSE, N.block], none⟩,
  ⟨N.else_statement, [T.ELSIF, T.LPAREN, N.«operator», T.RPAREN, N.block, N.else_statement], none⟩,
  ⟨N.block, [T.LBRACE, N.opt_statements, T.RBRACE], none⟩,
  ⟨N.eval_block, [T.EVAL, N.block], none⟩,
  ⟨N.var_decl, [T.MY, N.«var», T.COLON, N.qualified_type, N.opt_type_comment], none⟩,
  ⟨N.var_decl, [T.MY, N.«var»], none⟩,
  ⟨N.«var», [T.VAR_NAME], none⟩,
  ⟨N.opt_operators, [], none⟩,
  ⟨N.opt_operators, [N.operators], none⟩,
  ⟨N.opt_operator, [], none⟩,
  ⟨N.opt_operator, [N.«operator»], none⟩,
  ⟨N.«operator», [N.«var»], none⟩,
  ⟨N.«operator», [T.EXCEPTION_VAR], none⟩,
  ⟨N.«operator», [T.CONSTANT], none⟩,
  ⟨N.«operator», [T.UNDEF], none⟩,
  ⟨N.«operator», [N.type_cast], none⟩,
  ⟨N.«operator», [N.«new»], none⟩,
  ⟨N.«operator», [N.var_decl], none⟩,
  ⟨N.«operator», [T.EVAL_ERROR_ID], none⟩,
  ⟨N.«operator», [T.ARGS_WIDTH], none⟩,
  ⟨N.«operator», [T.TRUE], none⟩,
  ⟨N.«operator», [T.FALSE], none⟩,
  ⟨N.«operator», [T.OUTMOST_CLASS_NAME], none⟩,
  ⟨N.«operator», [N.unary_operator], none⟩,
  ⟨N.«operator», [N.binary_operator], none⟩,
  ⟨N.«operator», [N.assign], none⟩,
  ⟨N.«operator», [N.inc], none⟩,
  ⟨N.«operator», [N.dec], none⟩,
  ⟨N.«operator», [N.type_check], none⟩,
  ⟨N.«operator», [T.BASIC_TYPE_ID, N.«type»], none⟩,
  ⟨N.«operator», [N.can], none⟩,
  ⟨N.«operator», [N.array_init], none⟩,
  ⟨N.«operator», [N.array_access], none⟩,
  ⟨N.«operator», [N.field_access], none⟩,
  ⟨N.«operator», [N.isweak_field], none⟩,
  ⟨N.«operator», [N.call_method], none⟩,
  ⟨N.«operator», [N.sequential], none⟩,
  ⟨N.sequential, [T.LPAREN, N.operators, T.RPAREN], none⟩,
  ⟨N.operators, [N.operators, T.COMMA, N.«operator»], none⟩,
  ⟨N.operators, [N.operators, T.COMMA], none⟩,
  ⟨N.operators, [N.«operator»], none⟩,
  ⟨N.unary_operator, [T.ADD, N.«operator»], some T.PLUS⟩,
  ⟨N.unary_operator, [T.SUB, N.«operator»], some T.MINUS⟩,
  ⟨N.unary_operator, [T.BIT_NOT, N.«operator»], none⟩]

/-- Rules 200-249 of the documentation. -/
def grammar4 : List Rule := [
  ⟨N.unary_operator, [T.TYPE_NAME, N.«operator»], none⟩,
  ⟨N.unary_operator, [T.COMPILE_TYPE_NAME, N.«operator»], none⟩,
  ⟨N.unary_operator, [T.STRING_LENGTH, N.«operator»], none⟩,
  ⟨N.unary_operator, [T.DUMP, N.«operator»], none⟩,
  ⟨N.unary_operator, [T.DEREFERENCE, N.«var»], none⟩,
  ⟨N.unary_operator, [T.REFERENCE, N.«operator»], none⟩,
  ⟨N.unary_operator, [T.NEW_STRING_LEN, N.«operator»], none⟩,
  ⟨N.unary_operator, [T.COPY, N.«operator»], none⟩,
  ⟨N.unary_operator, [T.IS_READ_ONLY, N.«operator»], none⟩,
  ⟨N.unary_operator, [N.array_length], none⟩,
  ⟨N.array_length, [T.AT, N.«operator»], none⟩,
  ⟨N.array_length, [T.AT, T.LBRACE, N.«operator», T.RBRACE], none⟩,
  ⟨N.array_length, [T.SCALAR, T.AT, N.«operator»], none⟩,
  ⟨N.array_length, [T.SCALAR, T.AT, T.LBRACE, N.«operator», T.RBRACE], none⟩,
  ⟨N.inc, [T.INC, N.«operator»], none⟩,
  ⟨N.inc, [N.«operator», T.INC], none⟩,
  ⟨N.dec, [T.DEC, N.«operator»], none⟩,
  ⟨N.dec, [N.«operator», T.DEC], none⟩,
  ⟨N.binary_operator, [N.arithmetic_operator], none⟩,
  ⟨N.binary_operator, [N.bit_operator], none⟩,
  ⟨N.binary_operator, [N.comparison_operator], none⟩,
  ⟨N.binary_operator, [N.string_concatenation], none⟩,
  ⟨N.binary_operator, [N.logical_operator], none⟩,
  ⟨N.arithmetic_operator, [N.«operator», T.ADD, N.«operator»], none⟩,
  ⟨N.arithmetic_operator, [N.«operator», T.SUB, N.«operator»], none⟩,
  ⟨N.arithmetic_operator, [N.«operator», T.MUL, N.«operator»], none⟩,
  ⟨N.arithmetic_operator, [N.«operator», T.DIVIDE, N.«operator»], none⟩,
  ⟨N.arithmetic_operator, [N.«operator», T.DIVIDE_UNSIGNED_INT, N.«operator»], none⟩,
  ⟨N.arithmetic_operator, [N.«operator», T.DIVIDE_UNSIGNED_LONG, N.«operator»], none⟩,
  ⟨N.arithmetic_operator, [N.«operator», T.MODULO, N.«operator»], none⟩,
  ⟨N.arithmetic_operator, [N.«operator», T.MODULO_UNSIGNED_INT, N.«operator»], none⟩,
  ⟨N.arithmetic_operator, [N.«operator», T.MODULO_UNSIGNED_LONG, N.«operator»], none⟩,
  ⟨N.bit_operator, [N.«operator», T.BIT_XOR, N.«operator»], none⟩,
  ⟨N.bit_operator, [N.«operator», T.BIT_AND, N.«operator»], none⟩,
  ⟨N.bit_operator, [N.«operator», T.BIT_OR, N.«operator»], none⟩,
  ⟨N.bit_operator, [N.«operator», T.SHIFT, N.«operator»], none⟩,
  ⟨N.comparison_operator, [N.«operator», T.NUMEQ, N.«operator»], none⟩,
  ⟨N.comparison_operator, [N.«operator», T.NUMNE, N.«operator»], none⟩,
  ⟨N.comparison_operator, [N.«operator», T.NUMGT, N.«operator»], none⟩,
  ⟨N.comparison_operator, [N.«operator», T.NUMGE, N.«operator»], none⟩,
  ⟨N.comparison_operator, [N.«operator», T.NUMLT, N.«operator»], none⟩,
  ⟨N.comparison_operator, [N.«operator», T.NUMLE, N.«operator»], none⟩,
  ⟨N.comparison_operator, [N.«operator», T.NUMERIC_CMP, N.«operator»], none⟩,
  ⟨N.comparison_operator, [N.«operator», T.STREQ, N.«operator»], none⟩,
  ⟨N.comparison_operator, [N.«operator», T.STRNE, N.«operator»], none⟩,
  ⟨N.comparison_operator, [N.«operator», T.STRGT, N.«operator»], none⟩,
  ⟨N.comparison_operator, [N.«operator», T.STRGE, N.«operator»], none⟩,
  ⟨N.comparison_operator, [N.«operator», T.STRLT, N.«operator»], none⟩,
  ⟨N.comparison_operator, [N.«operator», T.STRLE, N.«operator»], none⟩,
  ⟨N.comparison_operator, [N.«operator», T.STRING_CMP, N.«operator»], none⟩]

/-- Rules 250-286 of the documentation. -/
def grammar5 : List Rule := [
  ⟨N.string_concatenation, [N.«operator», T.DOT, N.«operator»], none⟩,
  ⟨N.logical_operator, [N.«operator», T.LOGICAL_OR, N.«operator»], none⟩,
  ⟨N.logical_operator, [N.«operator», T.LOGICAL_AND, N.«operator»], none⟩,
  ⟨N.logical_operator, [T.LOGICAL_NOT, N.«operator»], none⟩,
  ⟨N.type_check, [N.«operator», T.ISA, N.«type»], none⟩,
  ⟨N.type_check, [N.«operator», T.ISA_ERROR, N.«type»], none⟩,
  ⟨N.type_check, [N.«operator», T.IS_TYPE, N.«type»], none⟩,
  ⟨N.type_check, [N.«operator», T.IS_ERROR, N.«type»], none⟩,
  ⟨N.type_check, [N.«operator», T.IS_COMPILE_TYPE, N.«type»], none⟩,
  ⟨N.type_cast, [T.LPAREN, N.qualified_type, T.RPAREN, N.«operator»], some T.CONVERT⟩,
  ⟨N.type_cast, [N.«operator», T.ARROW, T.LPAREN, N.qualified_type, T.RPAREN], some T.CONVERT⟩,
  ⟨N.can, [N.«operator», T.CAN, N.method_name], none⟩,
  ⟨N.can, [N.«operator», T.CAN, T.CONSTANT], none⟩,
  ⟨N.assign, [N.«operator», T.ASSIGN, N.«operator»], none⟩,
  ⟨N.assign, [N.«operator», T.SPECIAL_ASSIGN, N.«operator»], none⟩,
  ⟨N.«new», [T.NEW, N.basic_type], none⟩,
  ⟨N.«new», [T.NEW, N.array_type_with_length], none⟩,
  ⟨N.«new», [N.anon_method], none⟩,
  ⟨N.array_init, [T.LBRACKET, N.opt_operators, T.RBRACKET], none⟩,
  ⟨N.array_init, [T.LBRACE, N.operators, T.RBRACE], none⟩,
  ⟨N.array_init, [T.LBRACE, T.RBRACE], none⟩,
  ⟨N.call_method, [T.OUTMOST_CLASS, T.SYMBOL_NAME, T.LPAREN, N.opt_operators, T.RPAREN], none⟩,
  ⟨N.call_method, [T.OUTMOST_CLASS, T.SYMBOL_NAME], none⟩,
  ⟨N.call_method, [N.basic_type, T.ARROW, N.method_name, T.LPAREN, N.opt_operators, T.RPAREN], none⟩,
  ⟨N.call_method, [N.basic_type, T.ARROW, N.method_name], none⟩,
  ⟨N.call_method, [N.«operator», T.ARROW, N.method_name, T.LPAREN, N.opt_operators, T.RPAREN], none⟩,
  ⟨N.call_method, [N.«operator», T.ARROW, N.method_name], none⟩,
  ⟨N.call_method, [N.«operator», T.ARROW, T.LPAREN, N.opt_operators, T.RPAREN], none⟩,
  ⟨N.array_access, [N.«operator», T.ARROW, T.LBRACKET, N.«operator», T.RBRACKET], none⟩,
  ⟨N.array_access, [N.array_access, T.LBRACKET, N.«operator», T.RBRACKET], none⟩,
  ⟨N.array_access, [N.field_access, T.LBRACKET, N.«operator», T.RBRACKET], none⟩,
  ⟨N.field_access, [N.«operator», T.ARROW, T.LBRACE, N.field_name, T.RBRACE], none⟩,
  ⟨N.field_access, [N.field_access, T.LBRACE, N.field_name, T.RBRACE], none⟩,
  ⟨N.field_access, [N.array_access, T.LBRACE, N.field_name, T.RBRACE], none⟩,
  ⟨N.weaken_field, [T.WEAKEN, N.«var», T.ARROW, T.LBRACE, N.field_name, T.RBRACE], none⟩,
  ⟨N.unweaken_field, [T.UNWEAKEN, N.«var», T.ARROW, T.LBRACE, N.field_name, T.RBRACE], none⟩,
  ⟨N.isweak_field, [T.ISWEAK, N.«var», T.ARROW, T.LBRACE, N.field_name, T.RBRACE], none⟩]

/-- The 287 rules, in the order of the documentation (SyntaxParsing.pm
69-545). -/
def grammar : List Rule :=
  grammar0 ++ grammar1 ++ grammar2 ++ grammar3 ++ grammar4 ++ grammar5

/-- How two operators of one level group. -/
inductive Assoc
  | left
  | right
  | nonassoc
deriving DecidableEq, Repr

/-- The documented operator precedence, lowest first (SyntaxParsing.pm
"Operator Precidence" 905-930). -/
def precedence : List (Assoc × List Nat) := [
  (.right, [T.ASSIGN, T.SPECIAL_ASSIGN]),
  (.left, [T.LOGICAL_OR]),
  (.left, [T.LOGICAL_AND]),
  (.left, [T.BIT_OR, T.BIT_XOR]),
  (.left, [T.BIT_AND]),
  (.nonassoc, [T.NUMEQ, T.NUMNE, T.STREQ, T.STRNE]),
  (.nonassoc, [T.NUMGT, T.NUMGE, T.NUMLT, T.NUMLE, T.STRGT, T.STRGE, T.STRLT, T.STRLE, T.ISA, T.ISA_ERROR, T.IS_TYPE, T.IS_ERROR, T.IS_COMPILE_TYPE, T.NUMERIC_CMP, T.STRING_CMP, T.CAN]),
  (.left, [T.SHIFT]),
  (.left, [T.ADD, T.SUB, T.DOT]),
  (.left, [T.MUL, T.DIVIDE, T.DIVIDE_UNSIGNED_INT, T.DIVIDE_UNSIGNED_LONG, T.MODULO, T.MODULO_UNSIGNED_INT, T.MODULO_UNSIGNED_LONG]),
  (.right, [T.LOGICAL_NOT, T.BIT_NOT, T.AT, T.REFERENCE, T.DEREFERENCE, T.PLUS, T.MINUS, T.CONVERT, T.SCALAR, T.STRING_LENGTH, T.ISWEAK, T.TYPE_NAME, T.COMPILE_TYPE_NAME, T.DUMP, T.NEW_STRING_LEN, T.IS_READ_ONLY, T.COPY]),
  (.nonassoc, [T.INC, T.DEC]),
  (.left, [T.ARROW])]

/-- Level and grouping of a token in the precedence list; the first token
listed is at level 0. -/
def levelIn : List (Assoc × List Nat) → Nat → Nat → Option (Nat × Assoc)
  | [], _, _ => none
  | (a, ts) :: more, i, t => if ts.contains t then some (i, a) else levelIn more (i + 1) t

/-- Level and grouping of a token, when the documentation gives one. -/
def level (t : Nat) : Option (Nat × Assoc) := levelIn precedence 0 t

/-- A symbol of the grammar is a token or a nonterminal. -/
def isToken (s : Nat) : Bool := decide (T.CLASS ≤ s) && decide (s ≤ T.RPAREN)

/-- The last token of a right hand side. -/
def lastToken : List Nat → Option Nat
  | [] => none
  | s :: more =>
    match lastToken more with
    | some t => some t
    | none => if isToken s then some s else none

/-- A rule of the documentation by its position. -/
def ruleAt (r : Nat) : Rule := grammar.getD r ⟨0, [], none⟩

/-- The precedence of a rule: that of its `%prec` token, else that of its last
token. -/
def Rule.level (ρ : Rule) : Option (Nat × Assoc) :=
  match ρ.prec with
  | some t => Parse.level t
  | none =>
    match lastToken ρ.rhs with
    | some t => Parse.level t
    | none => none

/-- The rule ends with an operand, as `operator '+' operator` or `'-' operator`
do: a following operator could belong to that operand or to the whole. -/
def Rule.endsOpen (ρ : Rule) : Bool := ρ.rhs.getLast? == some N.«operator»

/-- The operator a rule has after a leading operand: `'+'` for `operator '+'
operator`, `INC` for `operator INC`. -/
def Rule.infix? (ρ : Rule) : Option Nat :=
  match ρ.rhs with
  | s :: t :: _ => if s = N.«operator» ∧ (Parse.level t).isSome then some t else none
  | _ => none

/-- The operators that follow an operand. -/
def infixTokens : List Nat := grammar.filterMap Rule.infix?

/-- An operator of level `m` takes an operand away from a phrase of level `l`
that ends with it: it binds more tightly, or just as tightly and does not group
to the left. -/
def takesOver (l m : Option (Nat × Assoc)) : Bool :=
  match l, m with
  | some (i, _), some (j, a) => decide (i < j) || (decide (i = j) && a != .left)
  | _, _ => false

/-- A phrase of level `l` that ends with an operand is not extended by an
operator of level `m`: the operator does not bind more tightly, and not just as
tightly while grouping to the right. -/
def staysOut (l m : Option (Nat × Assoc)) : Bool :=
  match l, m with
  | some (i, _), some (j, a) => !(decide (i < j) || (decide (i = j) && a == .right))
  | _, _ => false

/-- A phrase that ends with an operand has to give that operand to the operator
`t` that follows.  So the phrase cannot end there. -/
def Rule.givesUp (ρ : Rule) (t : Nat) : Bool :=
  ρ.endsOpen && infixTokens.contains t && takesOver ρ.level (Parse.level t)

/-- A phrase that ends with an operand keeps that operand for itself when the
operator `t` follows. -/
def Rule.keeps (ρ : Rule) (t : Nat) : Bool :=
  ρ.endsOpen && staysOut ρ.level (Parse.level t)

/-- Phrases that go on as long as they can: after a basic type `*` and `[`
belong to the type, after an array type `[`, after the types of a type comment
`|`, after `my $var` a `:`, and after the colon of `case` or `default` a block
is its block. -/
def greedy : List (Nat × List Nat × List Nat) := [
  (N.«type», [N.basic_type], [T.MUL, T.LBRACKET]),
  (N.«type», [N.array_type], [T.LBRACKET]),
  (N.type_comment, [T.OF, N.union_type], [T.BIT_OR]),
  (N.var_decl, [T.MY, N.«var»], [T.COLON]),
  (N.default_statement, [T.DEFAULT, T.COLON], [T.LBRACE]),
  (N.case_statement, [T.CASE, N.«operator», T.COLON], [T.LBRACE])]

/-- The phrase of a rule would go on with the token `t`. -/
def Rule.goesOn (ρ : Rule) (t : Nat) : Bool :=
  greedy.any fun g => ρ.lhs == g.1 && ρ.rhs == g.2.1 && g.2.2.contains t

/-- A parse tree: a token with what it carries, or a rule of the documentation,
by its position, applied to parts. -/
inductive Tree (α : Type)
  | leaf (sym : Nat) (val : α)
  | node (rule : Nat) (parts : List (Tree α))

namespace Tree

/-- The symbol a tree stands for. -/
def root {α} : Tree α → Nat
  | leaf s _ => s
  | node r _ => (ruleAt r).lhs

/-- The rule at the root. -/
def rule? {α} : Tree α → Option Nat
  | leaf _ _ => none
  | node r _ => some r

mutual
/-- The tokens of a tree, from left to right. -/
def tokens {α} : Tree α → List (Nat × α)
  | leaf s v => [(s, v)]
  | node _ cs => tokensL cs
/-- The tokens of a list of trees. -/
def tokensL {α} : List (Tree α) → List (Nat × α)
  | [] => []
  | c :: cs => tokens c ++ tokensL cs
end

mutual
/-- Every leaf is a token, and every node a rule of the documented grammar
applied to its right hand side. -/
def derivation {α} : Tree α → Bool
  | leaf s _ => isToken s
  | node r cs => decide (r < grammar.length) && cs.map root == (ruleAt r).rhs && derivationL cs
def derivationL {α} : List (Tree α) → Bool
  | [] => true
  | c :: cs => derivation c && derivationL cs
end

/-- The first token of a text that `next` follows. -/
def firstToken {α} (ts : List (Nat × α)) (next : Nat) : Nat :=
  match ts with
  | [] => next
  | t :: _ => t.1

mutual
/-- No phrase of the tree ends before a token it would have to go on with; the
tree is followed by the token `next`. -/
def endsRight {α} : Tree α → Nat → Bool
  | leaf _ _, _ => true
  | node r cs, next => !(ruleAt r).givesUp next && !(ruleAt r).goesOn next && endsRightL cs next
def endsRightL {α} : List (Tree α) → Nat → Bool
  | [], _ => true
  | c :: cs, next => endsRight c (firstToken (tokensL cs) next) && endsRightL cs next
end

/-- The tree and the trees it begins with: itself, its first part, the first
part of that, and so on. -/
def beginnings {α} : Tree α → List (Tree α)
  | leaf s v => [leaf s v]
  | node r cs => node r cs :: beginningsL cs
where
  beginningsL : List (Tree α) → List (Tree α)
    | [] => []
    | c :: _ => beginnings c

/-- `{ x }` as a list of one element. -/
def isBraced {α} : Tree α → Bool
  | node r [_, c, _] =>
    (ruleAt r).lhs == N.array_init && (ruleAt r).rhs == [T.LBRACE, N.operators, T.RBRACE] &&
    (match c.rule? with | some q => (ruleAt q).rhs == [N.«operator»] | none => false)
  | _ => false

/-- `{ }` as a block. -/
def isEmptyBlock {α} : Tree α → Bool
  | node r [_, c, _] =>
    (ruleAt r).lhs == N.block &&
    (match c.rule? with | some q => (ruleAt q).rhs == [] | none => false)
  | _ => false

/-- The operand at the end of a phrase does not begin with an operand that the
phrase keeps for itself: in `a * b + c` the phrase `a * …` keeps `b`. -/
def keepsOperand {α} (ρ : Rule) (c : Tree α) : Bool :=
  c.beginnings.all fun u =>
    match u.rule? with
    | some q => (match (ruleAt q).infix? with | some t => !ρ.keeps t | none => true)
    | none => true

mutual
/-- Inside the tree: every phrase that ends with an operand takes exactly the
operand the precedence gives to it; `{ }` is not a block where a statement is
expected; and what follows `@` does not begin with `{ x }` as a list. -/
def grouped {α} : Tree α → Bool
  | leaf _ _ => true
  | node r cs =>
    (!(ruleAt r).endsOpen ||
      (match cs.getLast? with | some c => keepsOperand (ruleAt r) c | none => true)) &&
    (!((ruleAt r).lhs == N.statement) || cs.all fun c => !isEmptyBlock c) &&
    afterAt cs && groupedL cs
def groupedL {α} : List (Tree α) → Bool
  | [] => true
  | c :: cs => grouped c && groupedL cs
/-- What follows `@` does not begin with `{ x }` as a list. -/
def afterAt {α} : List (Tree α) → Bool
  | c :: d :: cs =>
    (!(c.root == T.AT) || d.beginnings.all fun u => !isBraced u) && afterAt (d :: cs)
  | _ => true
end

mutual
/-- How many symbols have to be kept to read the tree from left to right: while
part number `i` is read, the `i` parts before it are kept. -/
def depth {α} : Tree α → Nat
  | leaf _ _ => 1
  | node _ cs => max 1 (depthL cs)
def depthL {α} : List (Tree α) → Nat
  | [] => 0
  | c :: cs => max (depth c) (depthL cs + 1)
end

/-- The parse tree the documentation describes for a text: a derivation of the
text that groups operators by the documented precedence, and in which phrases
go on as long as they can. -/
structure ParseOf {α} (t : Tree α) (text : List (Nat × α)) : Prop where
  start : t.root = N.grammar
  derives : t.derivation = true
  reads : t.tokens = text
  ends : t.endsRight T.END = true
  groups : t.grouped = true

end Tree

end SPVM.Parse
