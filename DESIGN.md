# A formal model of ASMotor in Lean 4

The code under study is `/repo` (ASMotor: the macro assembler `xasm`, the linker `xlink`, the
librarian `xlib`). The model is in `/verif/lean/Verif`. Property ids refer to `properties.jsonl`.

## Conventions

* One directory per area: `Verif/<Area>/Model.lean` (definitions transcribed from C, each citing
  file and lines), `Spec.lean` (small independent specification, if one is needed),
  `Lemmas.lean` (helpers) and `Props.lean` (the property theorems, each with an `example`
  showing that its hypotheses can be met by a non-trivial case).
* `uint32_t` is a `Nat` with explicit `% 2^32` where the C code may wrap; `int32_t` is an `Int` with
  explicit range checks. Undefined behaviour of C (division
  by zero, `INT_MIN / -1`, shift count outside 0..31, out of bounds access) is a separate outcome
  of the model (`Outcome.ub`), never a totalised default.
* `error(...)` of the linker prints, removes the output and exits: the model returns an error
  outcome (`Outcome.fail` or `none`).
* If the code violates a property, the negation is proved with a concrete witness, and what does hold is
  proved beside it, with the suffix `_partial` if part of the property is missing.

## Trusted base

* Lean 4.33.0's kernel; the axioms `propext`, `Classical.choice`, `Quot.sound` (no others:
  `#print axioms` was run on every theorem named in `MANIFEST.json`; rerun it when theorems are added).
* The transcription from C to Lean, function by function. The C compiler and libc are not modelled.
  The cited line numbers were compared with the source by listing the first and last cited line of every
  citation; about thirty were a few lines off in earlier versions and have been corrected. The list shows where a
  citation points, not that the transcription is right.
* `/repo/util` is an empty submodule in this checkout. Its functions are modelled by their
  evident contract: `fputll/fgetll` 32-bit little endian, `fputbl/fgetbl` 32-bit big endian,
  `fputlw/fgetlw`/`fputbw/fgetbw` 16-bit, `fputsz/fgetsz` NUL terminated string, `list_Insert`
  prepend, `list_Remove` unlink, `ffill` repeated byte, `str_*` immutable strings, `vec_*` growable
  vectors, `asr` arithmetic shift, fixed point maths (`fsin`, `fmul`, ...) uninterpreted.
* `qsort` permutes the array so that no element compares greater than a later one.
* File contents are byte lists; I/O never fails in the middle of a file unless the list ends.
* Memory allocation never fails; pointers are modelled by indices or values.

## Not modelled

Command line handling except for options that can be set in a source, message texts, map/list files, the floating point
functions inside `util/fmath`; the instruction parsers of the 680x0, and of the 65C816 and
the 4510 in the 6502 family. What each area leaves out is said in its `Model.lean`.

## Properties: what is modelled and how it is proved

This is the plan. What has been proved is in `MANIFEST.json`: properties that are not listed there
(none at present) have no theorem yet, and directories that do not exist have not been started.

Linker, placement (`Verif/Alloc`, `Verif/Assign`)

| id | model | proof |
|----|-------|-------|
| C01 | free list of chunks, the four pool functions | invariant over a history of requests: free chunks and handed-out ranges are pairwise disjoint |
| C02 | same, plus groups as lists of pool indices | invariant: everything inside the pool |
| C03 | `assign_Process` with its passes | a placed fixed section has its address; negation for `BSS`+`DATA` flag groups, which only reach the last pass |
| C04 | `pool_AllocateAligned` | arithmetic; also with page |
| C05 | `pool_AllocateAligned` | arithmetic for unaligned requests; negation with a witness when align and page are combined |
| C06 | the allocators | failure implies that no address in any chunk satisfies the request; negation for paged requests (only the first chunk is searched) |
| C07 | the allocators | free set after = free set before minus the range, as sets of addresses and as byte counts |
| C08 | the group allocators | arithmetic plus C01 |
| C09 | `assign_Process` over a section list and pool table | invariant over passes |

Linker, symbols and patches (`Verif/Smart`, `Verif/Resolve`, `Verif/Patch`)

| id | model | proof |
|----|-------|-------|
| C10 | sections as a finite graph, recursive marking | marking with fuel = reachability closure, fuel = number of sections suffices |
| C11 | `resolveSymbol` over an array of sections | induction on recursion; spec = lookup in export table |
| C12 | stack machine on bytes, `writeExpression` as compiler | compiler correctness by induction on trees |
| C13 | `patchSection`, byte list update | case analysis; spec = list equality outside the window and decode inside |
| C14 | three evaluators (fold, reduce, link) | per operator equality for all 32-bit operands; induction on trees |

File formats (`Verif/Object`, `Verif/Library`, `Verif/Image`, `Verif/Formats`)

| id | model | proof |
|----|-------|-------|
| C15 | writer and parser of XOB6 | parser inverts writer, by induction on each list |
| C16 | parser for each version | parser inverts the version's spec encoder, with defaults |
| C17 | lib_Write / lib_Read | as C15 |
| C18 | module list operations | refinement to a finite map; delete-last is a wild pointer read, so the property is negated for it |
| C19 | readXLB0/readChunk | induction on modules |
| C20 | `internalWriteBinary` on a byte buffer | invariant over the section loop |
| C21, C22 | header updates on byte lists | modular sums |
| C23 | `Verif/Container`: writers as byte lists, independent loaders as spec | load (write x) = x for CoCo, PGZ, Amiga and HC800; negations for PGZ, CoCo, Amiga and HC800 |
| C24 | `Verif/Sort`: comparator and relinking of the list; `qsort` by its contract (a permutation without descents) | comparator is a total preorder for in-range values; every possible result is ordered, and one exists |
| C42 | `commodore_WritePrg`, `commodore_WriteMega65Prg` | loader and reader of BASIC lines as spec; negation for header addresses |
| C43 | `foenix_WriteExecutableKUP` | blocks mapped to slots as spec; negation for padding |
| C44 | `Verif/Config`: every built-in memory map as a table | complete enumeration for the tables; C01, C02, C08, C20, C42 lift them to every list of sections; counterexamples for the maps that are wrong |
| C45 | options as a state machine over `List Char` | induction on the options |
| C46 | the same tables against those of the documentation | complete enumeration |
| C25 | `Verif/Layout`: tokenizer, recursive descent parser, directives | `Spells` relates lines to their words; parsing the words of an expression gives its tree, C12 its value; induction over the lines of a file; counterexamples |

Assembler (`Verif/Expr`, `Verif/Symbol`, `Verif/Section`, `Verif/BinObj`, `Verif/Lexer`, ...)

| id | model | proof |
|----|-------|-------|
| C26 | `expr_Optimize`, `writeExpression` | induction on trees |
| C27 | `Verif/Symbol`: symbol table operations | refinement to a dictionary of paths by induction on histories; what an operation can change; counterexamples |
| C28 | scope rules | as C27 |
| C29 | `Verif/Section`: section buffers, emit operations and the directives that use them | refinement to byte list append by induction on histories; counterexamples |
| C30 | `Verif/BinObj`: `commonPatch`, `bin_Write`, `bin_WriteVerilog` | first position that satisfies the constraints, induction over the section list; values of patches from `Verif/Expr`; negations, also where align does not divide page |
| C31 | `Verif/Lexer`: literal scanner | positional value of the digits, induction on digits, on top of the stream of C33; counterexamples |
| C58 | `Verif/Lexer`: hash table of words, `acceptNext` and all it calls, `parse_GetToken`, `tokens_Init` | rules for tokens and lines (`TokenAt`, `LineAt`) as spec; the table is the list of its words, by induction on definitions; the longest word by induction on the characters, on top of the stream of C33; induction on the tokens of a line; counterexamples |
| C59 | `Verif/Source`: tokens as the parsers see them, composition of scanner and parsers | tokens separated by blanks (`Written`) give a line of C58; composition with C57 for the Z80 and with C60 for the 6809; six assemblers divide lines in the same way and write operators as documented; every expression and operand has a spelling, by induction; the words of the assembler are checked completely |
| C32 | `Verif/Lexer`: `lexbuf_GetChar` with char stack | refinement to textual substitution under a condition on arguments; negation with empty arguments |
| C33 | char stack | abstract stream semantics |
| C34 | `Verif/Lexer`: `lex_GetNextDirective`, `skipToDirective`, `parse_CopyMacroBlock` on the characters of the buffer | lines and nested blocks as spec; induction on nesting over an abstract directive reader, and on lines for the two readers; counterexamples |
| C35 | `Verif/Text`: xorshift32 step | linear algebra over bits: the order of the matrix is 2^32 - 1; range arithmetic |
| C36 | RS counter, structures | induction on the reservations, on top of the refinement of C27; counterexamples |
| C37 | `Verif/Parse`: recursive descent over tokens, with the calls for operators as a parameter | parse (print e) = e for every expression with the parentheses it needs, by induction on the expression; conversely, what is accepted without strings is such an expression, by induction on the depth; counterexamples to the documented precedence |
| C38 | pc-relative in three evaluators | arithmetic mod 2^32; negation for word size > 1 |
| C39 | differences in three evaluators | arithmetic mod 2^32; negation for dropped addends |
| C40 | slice arithmetic on Int | case analysis against a spec with `List.drop/take` |
| C41 | linemap entries | part of the refinement of C29 |
| C47 | `sym_CreateLabel` | part of the refinement of C29 |
| C48 | `formatValue`, `PRINTF`, `PRINTV` | positional value of the digits, induction on digits; counterexamples |
| C49 | `Verif/Flow`: the stack of contexts, `handleRept` … `handleElse`, macro calls, `INCLUDE` on lists of lines | big-step meaning of structured programs as spec; induction on the derivation, for every stack below; counterexamples |
| C50, C51, C52, C53 | `Verif/Cpu/Common` (operands are read with the parser of C37, expressions are those of C14), `Verif/Cpu/Schip`, `Verif/Cpu/Dcpu`, `Verif/Cpu/Mips`, `Verif/Cpu/X65`: word tables, addressing modes, instruction tables and handlers | decoder of the machine language as spec, written from the processor's side; encode then decode gives the instruction as written, for all operands and values; counterexamples |
| C54 | `Verif/Elf`: `xasm/motor/elf.c` (writer) and `xlink/elf.c` (reader), `getSymbolOffset` of `xasm/motor/expression.c` | layout of the written file (`Format`, from the ABI); reading what was written gives sections that stand for those of the assembler (`Same`); the value of patches through C12; when a file is written; counterexamples |
| C57 | `Verif/Cpu/Z80`: word table, `parse_AddrMode`, table of instructions, all handlers of `xasm/z80/z80_parse.c` | what a line means (`sem`) and the formats of the instructions (`Instr.slots`) as spec, and a decoder written from the processor's side; the handlers agree with it for every mnemonic and list of operand forms by a table checked in the kernel, which is complete because forms are finite; expressions and values are for all; counterexamples |
| C60 | `Verif/Cpu/M6809`: word table, `m6809_ParseAddressingMode`, table of instructions, all handlers, `SETDP` | map of the opcodes, post bytes and decoder written from the data sheet; the rows of the table agree with the map by a check in the kernel, which is complete because mnemonics and formats are finite; operands, expressions, values and addresses are for all; counterexamples |
| C61 | `Verif/Program`: statements one after the other (symbols, section directives, items of instructions), patches settled by the assembler, patches applied by the linker | a meaning of programs without trees, patches and passes (`Spec.run`, `Contents`); simulation by an invariant over the statements (`Inv`), in which an expression is right for all symbols that may still be defined; then C14, C15 and C16 for the patches; composition with C59 for text; types of symbols agree with those of C27 (`Agree`) |
| C62 | `Verif/Program/Emit`: which symbols are written to an object file, with types and numbers; what the linker reads and asks for (`linkEnv`) | `Linked` of C61 is proved from C16 (`Means`) for sections that come from object files in any order; an entry of a file stands for a symbol of its program (`Entered`, `own_origin`), an import for the export of another program; two programs as an example, and a program with two local labels of one name as a counterexample |
| C63 | `Verif/Cpu/Rc8`: word table, `parseAddressingMode`, conditions, table of instructions, all handlers of `xasm/rc8/rc8_parse_instr.c` | a machine (`decode`, `act`, `goto`, `Runs`) written from `test/rc8/allcodes.rc8`; every sequence of bytes is executed for all states (`Does`), values through C14; finitely many registers and mnemonics by cases, lists of registers, expressions, values, states and programs for all; flags, `SYS`, `PICK`, `RETI` and the link of `JAL` are left open in `Cpu`; counterexamples |
| C64 | `Verif/Options`: options and their stack, `opt_Parse`, warnings that are switched off, options, `BITS`, `SETBP` and the table of words of the 6502 family, options and groups of the 680x0, options of the Z80, DCPU-16, MIPS, CHIP-8 and RC8 | what a processor has to obey (`Law`) and an invariant of the states between two lines (`Ok`); induction over balanced sequences; the words by removing a permutation of a prefix; a source without messages has options for which C53 holds; coprocessors of the 680x0 by cases; for all others, with the 680x0 and its groups as an instance, the law is trivial; counterexamples |
| C55, C56 | `Verif/Ami`: `xasm/motor/amigaobject.c` with seeking and overwriting, `expr_GetImportOffset` | independent reader of hunk files; memory after relocation holds the values of C12 (`Holds`), every patch being in exactly one group; when a file is written; counterexamples |

## Where the code does not do what is expected

Each has a theorem with a concrete witness.

* C02: a fixed section whose end wraps around 2^32 is accepted outside its pool.
* C03: the address of a fixed section in a `BSS` group with the `DATA` flag is ignored.
* C05: an aligned section with a page can straddle the page.
* C06: paged requests search the first free chunk only; an empty fixed section splits free memory for good.
* C10: importing a constant can keep an unrelated section, or be refused.
* C11: a local import of the first object file can get a symbol of the memory layout; for relocatable output an
  import of a layout symbol can be refused.
* C12: for relocatable output, differences drop addends, and the difference of unresolved imports is 0.
* C13: `BANK` of a symbol without bank is skipped silently; patch offsets are not checked.
* C14: a PC-relative value in parentheses can be forgotten; division by an unknown operand can be refused.
* C18: deleting the oldest module of a library is undefined behaviour.
* C19: modules made of several object files, and empty ones, break a library.
* C20: an image that has the right size already gets a further block of padding, or is doubled (padding 0).
* C22: a Mega Drive image of less than 512 bytes makes the linker loop for about 2^63 rounds; the Master System writer
  needs an output file that exists already, and then updates the header through a file that has been closed (by the
  contract of `map_Free`); bytes missing from an image count as 65535 in its checksum.
* C23: a PGZ file whose start address is where the last section ends has no start record, and an empty section is taken
  for one; CoCo blocks truncate lengths and addresses of 65536 and more; the Amiga entry option is refused for every
  symbol that has a hunk, and a program without hunks gets a header that cannot be loaded; the HC800 writer writes unused
  sections, or fails an assertion on them.
* C24: sorting an empty list of sections is undefined behaviour; comparing extreme addresses overflows.
* C25: a negative bank number is subtracted from the address before it, so both complete files in the documentation are
  misunderstood or refused; binary numbers are refused; a property of a group cannot be used in a sum, or the sum is left
  out; a missing operand or parenthesis may go unnoticed; the word after a header address is skipped; a range of pools up to
  `$FFFFFFFF` does not end; `@` outside of `POOLS` has a left-over value.
* C26: parentheses that have not been simplified away are written twice.
* C27: `EQU` of a name that the assembler has defined, and `EXPORT` of one that cannot be exported, dereference a null
  pointer; a reservation moves the counter although its name is refused; a variable can be exported if `EXPORT` comes
  first; a group cannot be defined after its name was used.
* C28: constants, variables and structures begin scopes, although documented to be begun by labels only, and so does the
  first use of the `__RS` counter; the current scope can be purged and is used afterwards.
* C29: `DW` and `DL` without operand, documented for variables, report an error; an empty string is a byte; 64 bit floating
  point numbers have their halves exchanged on big endian machines; `DSL` of 2^30 longs reserves nothing; `CNOP 0,0` divides
  by zero, `EVEN` without section dereferences a null pointer; with 16 bit words a file of odd length moves later labels;
  `SECTION` with a comma at its end, or `BANK` without a number on a machine without banks, has no effect; the load address
  $FFFFFFFF is ignored; `ALIGN[0]` with a load address divides by zero; `SECTION` with only a name always reports an error;
  a section with attributes can not be selected again after `ORG`.
* C30: a branch, or any other distance, from a section without load address to a label in another section is written as 0 without a
  message, and so is `BANK` of a label in a section without bank; a section that is moved to the next page may lose its
  alignment; positions wrap around at 2^32; alignment 0 and page 0 divide by zero; for the Z80 a load address in a bank is
  counted from the start of the bank, and a second section in a bank is refused unless it has one.
* C31: literals of more than 257 characters overflow the token; ten or more decimals give a wrong fraction (`0.1000000000` is
  0.709), and 32 decimals or 8 hexadecimal digits behind the point divide by zero; `$` and `%` without digits are 0; the
  character behind a Game Boy literal is lost; `$12.bar` is read as a fraction.
* C32: an empty argument directly followed by a placeholder or a backslash is not expanded correctly; an argument of more than
  256 characters overflows the stack; placeholders inside of arguments are replaced, but not at the start of an argument.
* C33: a backslash put back before a digit or `@` is taken for a placeholder; the stack of characters is not checked; a zero
  on the stack hides the characters below it.
* C34: an unterminated condition is not noticed if a nested one ends the text, and if the nested one is not terminated
  either the assembler calls itself without end; while text is skipped, `if_x` and `if2` are taken for `IF`, and so is the
  `if` of `label:; if so`; in a macro body the first word of a comment behind an empty line is taken for a directive.
* C35: `RAND` with the upper bound 2^31 - 1, with more than 2^31 - 1 values or with none is undefined behaviour; a lower bound
  above the upper one is accepted; after `RANDSEED 0` all random numbers are the lower bound.
* C36: a constant `__RS` makes the first reservation dereference a null pointer, a variable `__RS` is reset by it; a field can
  be defined twice without a message; `SIZEOF`, documented as a field of every structure, does not exist; the counter can
  be purged and is used afterwards.
* C40: `slice` with a large count overflows.
* C42: header addresses that are not of the form xx01 break the BASIC line.
* C43: a padded program that fills its slots exactly gets a further slot.
* C44: the set up of the C64, C128, C264 and MEGA65 writes outside of an array; `-chc8mh` is refused whatever the format;
  programs with a `HOME` section cannot be linked for the HC800; the F256 zero page lies inside the memory for code;
  variables in C128 function ROMs are placed anywhere, although documented not to be; the shared memory of the medium HC800
  map overlaps the first code bank; HC800 and Amiga images written with `-fbin` overlap, and so does initialised work
  memory of the Mega Drive; `-tc128fh` is refused.
* C45: `-t` forgets an earlier `-f`; with two options `-s` root and entry point differ; layout file names are turned into
  lower case; eight machine names of the help text are unknown.
* C46: the documented areas of the Game Boy's `HRAM`, the HC800's `HOME` and `CODE_S`, the F256's main memory and the
  Amiga's groups differ from those that are used.
* C47: `ORG` has no effect on labels in a section with a bank.
* C48: `{42:X}` is documented to be `2A` and is `0000002A`; a hexadecimal precision of 4 to 7 copies between overlapping arrays,
  one above 8 and a fixed point precision above 7 go outside of arrays; six decimals print five; negative fixed
  point values are wrong (-0.5 is printed as -1.50000); the smallest integer overflows; unknown formats print nothing.
* C37: shifts and multiplications are on one level (`1 << 2 * 3` is 12), and `~!` binds more tightly than `&&` and `||`;
  the documentation says otherwise. A character constant cannot be compared with a number. `(+"A")` and local labels
  called `.upper` or `.lower` hand a null pointer to a string function.
* C49: `MEXIT` and `ENDM` in a context that is no macro, such as a repetition in a macro, make the assembler loop; a
  missing `ENDC` is not noticed behind `IFC`, `IFNC`, `IFD`, `IFND` and `ELSE`; `ENDC` and `ENDR` alone are accepted; a
  file that ends with `ENDR` is refused if the repetition is left by `REXIT`.
* C50: `SCD n` is refused, or rather its handler looks at a third operand that does not exist; `LDM RPL,Vx` is assembled for
  the CHIP-8; without its first operand an instruction is assembled for the register 255 (`SHL` becomes `0xFF0E`); `LO` and `HI`
  of the documentation are called `LOW` and `HIGH`; the documentation calls `SUBN` `SUB`.
* C51: literals are not checked (`SET A,65536` is `SET A,0`); optimising `ADD A,-1` uses freed memory (and `SUB A,1`, which is
  intended, leaves another value in `O`); `[--SP]` is read as `PEEK`; `[A-1]` is refused, and the offset of `[4+A- -3]` is 1;
  without the option `-mo` the setting is uninitialised (dcpu16_options.c 38-39).
* C52: `SLLV`, `SRLV`, `SRAV` and `ROTRV` take their two source registers in the wrong order; `BLTZL` is encoded as another instruction;
  `SLTIU`, `TGEIU` and `TLTIU` accept 0 to 65535, but the processor extends the sign; a branch or a jump to an address that is not
  that of a word, and a jump out of the region of 256 MB, go elsewhere without a message; without its number `ADDI R1,R2,` puts out
  nothing; `MULTU` is called `MULU`, `JALR` and others are words without a meaning. The option for the release of the processor is
  not looked at by the parser.
* C53: the undocumented `RLA` is encoded as `SRE`; `STP` and `WAI` are assembled for the 65C02, which does not have them; `LDA (n)` is
  refused if `n` is a label, and whether `BBR 3,n,target` is assembled depends on memory that is not set if `n` is a label; `BIT #-1` is
  refused, although `LDA #-1` is not; the synthesized `ASL #-1` puts out nothing; the `<` of `LDA <$12,Y` is ignored.
* C54: a patch of 8 or 16 bits in an ELF object becomes one of 32 bits, and the bytes behind it are cleared, beyond the memory of the
  section if the patch is at its end; `label+1` is refused, since offsets are only looked for behind imports; `5-import` becomes `import+5`;
  the linker follows a null pointer if a constant is exported. Patches are big endian in little endian files as well. Not proved, since the model has `ub` there:
  sections of relocations without addends have a number of relocations that is never set (xlink/elf.c 617-634), and a symbol
  name of 255 characters or more is not terminated.
* C55, C56: with debug information the names of sections are written in the list of resident libraries of an executable, which then cannot be loaded; an
  executable without sections has 4294967295 as the number of its last hunk; addresses of labels are refused if the section is aligned, fixed or has a
  bank; fixed addresses are lost without a message; an object does not ask for chip memory, and does not define exported constants; `5-import`
  becomes `import+5`.
* C57: `LD H,IXH`, `LD IXH,(HL)` and the like are assembled to other instructions, `LD (IX+d),(HL)` to `HALT` with a prefix; `INC (IX+d)` and shifts of
  `(IX+d)` are assembled for the Game Boy; `RLC (IX)` and `OUT (BC),n` use a register number that is not set; `SLA SP` becomes `SET 7,A`; `DEC IXH` is
  refused; on the Game Boy `ADD SP,200` is accepted; a `+` before parentheses does not keep them from meaning an address. Not proved: the default of the
  option for undocumented instructions is never set (z80_options.c).
* C60: offsets of 8 and 16 bits, and all offsets in brackets, from `Y`, `U` and `S` are encoded as offsets from `X` (the expected output of the
  project's own test, test/6809/test.bin, contains this); short branches, `<n,PCR` and `<n,R` accept 128 to 255 and wrap around; an offset whose value is not
  known yet is refused unless `<` or `>` is written; `ROL #n` and `ROR #n` put out nothing without a message, `PSHS #n` and the like a byte that was never
  set; `LSRA` and `LSRB` are missing, `D` in lists and the names `DP`, `CC` and `PC` are not taken
  (doc/Cpu6809.md has `tfr b,dp`); a comma at the end is passed over.
* C58: a string symbol whose contents contain its own name makes the assembler loop.
* C58: the contents of a string symbol with `#` are not scanned again: contents that are a word become a name, and a digit becomes a character; `@` and `#` are
  not part of names, although documented; a word can be defined as a label, but not be used as one; a string without an end, and a name of more than 256
  characters, overflow the token; a file whose last line has no line break does not end that line.
* C62: two local labels with the same name in different scopes that are both used by another section are written to the object file under the
  same name; the linker looks for local imports by name (xlink/section.c 82-103) and takes the first for both: `dw .l` stores the wrong address
  without a message.
* C63: `LIO (DE+),T`, `LIO (-DE),T` and the same with `FT` write through `HL` (0x31 is used as the base of the opcodes, xasm/rc8/rc8_parse_instr.c 633-643);
  `LCO FT,(r)` reads a byte into `T`; `SUB T,T` and `SUB T` negate `T`; `EXG r,r` exchanges with `T` or `FT`; `ADD FT`, `LD (FT+),F` and `LD (-FT),F`
  become opcodes that do not exist; `LIO FT,(r)` is refused, though `LIO FT,(r+)` exists; `PUSH BC/BC` fails an assertion; `PUSH BC/DE/` is accepted.
* C63: 0x7F80 to 0x7FFF cannot be added to a pair of registers, more than 32768 cannot be subtracted from one, 129 to 255 cannot be subtracted from a register,
  negative words that are not known yet cannot be loaded; `CMP r,n` and `SYS n` take words.
* C64: `POPO` does not restore the paths for included files, which `OPT i` adds to (xasm/motor/options.c 161-164); numbers of warnings are cut to 16 bits
  (39), so `OPT w65538` switches off warning 2; after 32 no further warning can be switched off; `OPT mu2` is refused for processors other than the 6502 but
  set nevertheless (xasm/6502/x65_options.c 98-107, 136-139); `OPT z` with a text that is no number uses a variable that may not have been set
  (xasm/motor/options.c 89-92), and `OPT i` without a path reads in front of a string (xasm/motor/includes.c 109).
* C64, 680x0: the groups of a platform that is set between `PUSHO` and `POPO` stay; whether a coprocessor fits the processor is tested by `OPT` and `POPO` but not
  by directives such as `FPU6888X`, so that `PUSHO` and `POPO` with nothing between them can give an error (xasm/680x0/m68k_options.c 51-64).
* C64, Z80: whether undocumented instructions are allowed is not set by `z80_SetDefaultOptions` (xasm/z80/z80_options.c 45-49), although the help text says that
  they are disabled by default (116-118): without `-mu` it is what the memory holds (`C64_z80_default`). `mem_Alloc` is in util, which is not in the checkout;
  the model takes its memory as arbitrary.
* C64, DCPU-16: `x10c_SetDefaults` sets nothing (xasm/dcpu-16/dcpu16_options.c 38-39), so that without `-mo` it depends on the memory whether `SET A,1` has one
  word or two (`C64_dcpu_default`).

## Seeded faults

`seeded/LOG.jsonl` has one line per edit of the model. `failed` lists what no longer compiles in the edited copy.
`property_theorems_lost` lists the property theorems whose proofs depend on that. A proof that breaks does not by
itself show that its statement is false of the edited program: a script can break because a term looks different.
Edits for which this was found to be the only reason have a `remark`. For the edits of `Resolve`, `Sort`, `Image`, `Container`, `Config`,
`Layout`, `Section`, `Symbol`, `Text`, `Lexer`, `Flow`, `Parse`, `Cpu`, `BinObj`, `Elf` and `Ami` this was gone through one by one; for those of the other areas it was looked into where it was suspected, not for every edit.
