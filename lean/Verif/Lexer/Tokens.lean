import Verif.Lexer.Words
/-!
# The words of all assemblers

The numbers are those of `EToken` (xasm/motor/tokens.h 24-185).
-/
namespace Verif.Lexer

/-- A word that is written in the source of the assembler. -/
def word (p : String × Nat) : Word := ⟨p.1.toList, p.2⟩

/-- `staticTokens` (xasm/motor/tokens.c 39-165). -/
def staticTokens : List (String × Nat) :=
  [("||", 311), ("&&", 312), ("==", 305), (">", 307), ("<", 309), (">=", 308), ("<=", 310), ("~=", 306), ("~!", 313),
   ("|", 314), ("!", 314), ("^", 315), ("&", 316), ("<<", 317), (">>", 318), ("+", 320), ("-", 321), ("*", 322), ("/", 323),
   ("~/", 324), ("~", 319), ("//", 332), ("**", 333), ("DEF", 326), ("ALIGN", 328), ("PAGE", 329), ("ROOT", 330),
   ("RAND", 331), ("SIN", 334), ("COS", 335), ("TAN", 336), ("ASIN", 337), ("ACOS", 338), ("ATAN", 339), ("ATAN2", 340),
   ("ASFLOAT", 341), ("COMPARETO", 342), ("INDEXOF", 343), ("SLICE", 345), ("LENGTH", 344), ("UPPER", 346), ("LOWER", 347),
   ("PRINTT", 364), ("PRINTV", 365), ("PRINTF", 366), ("EXPORT", 367), ("XDEF", 367), ("IMPORT", 368), ("XREF", 368),
   ("GLOBAL", 369), ("RSRESET", 357), ("RSSET", 358), ("RSEND", 359), ("SET", 352), ("=", 352), ("SECTION", 385),
   ("GROUP", 353), ("TEXT", 354), ("RAM", 355), ("ORG", 386), ("ONCE", 356), ("EQU", 349), ("EQUF", 351), ("EQUS", 350),
   ("PURGE", 370), ("FAIL", 371), ("WARN", 372), ("ASSERTF", 373), ("ASSERTW", 374), ("INCLUDE", 375), ("INCBIN", 376),
   ("REPT", 390), ("ENDR", 392), ("REXIT", 391), ("IF", 397), ("IFC", 393), ("IFD", 395), ("IFNC", 394), ("IFND", 396),
   ("IFNE", 397), ("IFEQ", 398), ("IFGT", 399), ("IFGE", 400), ("IFLT", 401), ("IFLE", 402), ("ELSE", 403), ("ENDC", 404),
   ("MACRO", 348), ("SHIFT", 387), ("MEXIT", 388), ("ENDM", 389), ("PUSHS", 410), ("POPS", 411), ("PUSHO", 407), ("POPO", 408),
   ("OPT", 409), ("RANDSEED", 412), ("LOWLIMIT", 413), ("HIGHLIMIT", 414), ("EVEN", 405), ("CNOP", 406), ("END", 417)]

/-- What `SConfiguration` says about words (xasm/motor/xasm.h 49-97): the smallest size of data in bytes, banks, and the names for
reserving, defining and filling data of 1, 2, 4 and 8 bytes. -/
structure Config where
  minimumWordSize : Nat
  supportBanks : Bool
  reserve : List (Option String)
  define : List (Option String)
  space : List (Option String)

/-- One of the groups of `tokens_Init`: for each size a fixed name, and then one of the processor. -/
def sized (c : Config) (fixed : List String) (names : List (Option String)) (token : Nat) : List (String × Nat) :=
  let all := [(1, token), (2, token + 1), (4, token + 2), (8, token + 3)]
  let ok := fun (size : Nat) => decide (c.minimumWordSize ≤ size)
  ((fixed.zip all).filterMap fun (w, size, t) => if ok size then some (w, t) else none) ++
    ((names.zip all).filterMap fun (w, size, t) => if ok size then w.map (·, t) else none)

/-- `tokens_Init` (xasm/motor/tokens.c 167-229), in the order of the definitions. -/
def tokensInit (c : Config) : List (String × Nat) :=
  staticTokens ++ sized c ["__RSB", "__RSW", "__RSL", "__RSD"] c.reserve 360 ++ sized c ["__DSB", "__DSW", "__DSL", "__DSD"] c.space 377 ++
    sized c ["__DCB", "__DCW", "__DCL", "__DCD"] c.define 381 ++ (if c.supportBanks then [("BANK", 327)] else [])

/-- The words in use, the last one defined first; those of the processor come after the others (xasm/motor/xasm.c 232-237). -/
def allWords (c : Config) (cpu : List (String × Nat)) : List Word := ((tokensInit c ++ cpu).map word).reverse

/-- The table at the start. -/
def table (c : Config) (cpu : List (String × Nat)) : Table := Table.empty.defineAll ((tokensInit c ++ cpu).map word)

end Verif.Lexer
