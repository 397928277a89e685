{"id": "C01", "title": "Placed sections never overlap", "statement": "When the linker places sections into a memory pool, the CPU byte ranges handed out by successive successful placements (fixed-address, first-fit, aligned or paged, in any order) are pairwise disjoint.", "quantifier": "every pool (base, size below 2^32), every finite history of placement requests with arbitrary sizes, addresses, alignments and page sizes", "why_tests_cant": "Overlap only shows up for particular interleavings of fixed and floating sections and particular free-list shapes; the space of histories is infinite.", "anchors": ["xlink/group.c: pool_AllocateMemory, pool_CarveRange, pool_AllocateAbsolute, pool_AllocateAligned"]}
{"id": "C02", "title": "Placed sections stay inside their memory area", "statement": "Every range the linker hands out lies completely inside the memory area declared for the pool it came from, and the pool belongs to the section's group and to the bank the section asked for, if it asked for one.", "quantifier": "every group layout, every request history", "why_tests_cant": "Containment must survive chunk splitting an unbounded number of times.", "anchors": ["xlink/group.c: pool_CarveRange, group_AllocateAbsoluteFromGroup, group_AllocateAlignedFromGroup"]}
{"id": "C03", "title": "Fixed addresses are honoured", "statement": "A section with a fixed address (SECTION ...,CODE[$1234]) is placed at exactly that address, or the link fails; it is never moved.", "quantifier": "every set of sections and every pool state, for sections whose group is a plain/shared code, data or bss group", "why_tests_cant": "Depends on the order of twenty-odd passes over all sections.", "anchors": ["xlink/assign.c: assignOrgAndBankFixedSection, assignOrgFixedSection, assignSection, assign_Process", "xlink/group.c: pool_AllocateAbsolute"]}
{"id": "C04", "title": "Alignment is honoured", "statement": "A section with ALIGN[n] that is placed by the linker starts at a byte address divisible by n.", "quantifier": "every n>0, every section size, every pool state, with or without a page constraint", "why_tests_cant": "Alignment arithmetic is done in wrapping 32-bit arithmetic on arbitrary free-list states.", "anchors": ["xlink/group.c: pool_AllocateAligned"]}
{"id": "C05", "title": "Paged sections do not straddle a page", "statement": "A section with PAGE[n] that is placed by the linker does not cross a boundary that is a multiple of n.", "quantifier": "every n>0, every section size, every alignment, every pool state", "why_tests_cant": "Fails only for particular combinations of alignment, page size and free-list offset, which examples miss.", "anchors": ["xlink/group.c: pool_AllocateAligned"]}
{"id": "C06", "title": "Placement fails only for lack of room", "statement": "If the linker reports that a floating section does not fit, then no free area of the group is large enough for it (taking its bank, alignment and page constraint into account).", "quantifier": "every free-list state and every request", "why_tests_cant": "Requires knowing that no placement exists, i.e. a universal statement about all addresses.", "anchors": ["xlink/group.c: pool_AllocateMemory, pool_AllocateAligned, pool_AllocateAbsolute"]}
{"id": "C07", "title": "Free memory is conserved", "statement": "After every placement the free memory of a pool is exactly what it was before minus the placed bytes: no address is lost and none is duplicated.", "quantifier": "every history of requests", "why_tests_cant": "Leaks appear only after long histories with splits.", "anchors": ["xlink/group.c: pool_CarveRange, pool_AllocateAligned"]}
{"id": "C08", "title": "Image offsets follow CPU addresses", "statement": "Two sections placed in the same pool with disjoint CPU ranges get disjoint image ranges, the image offset is the pool's image offset plus the distance from the pool's CPU base, and sections placed in a pool without image never get an image offset.", "quantifier": "every pool, every history", "why_tests_cant": "Quantifies over all pairs of placements.", "anchors": ["xlink/group.c: group_AllocateAbsoluteFromGroup, group_AllocateAlignedFromGroup"]}
{"id": "C09", "title": "Every used section is placed, once", "statement": "When section placement succeeds, every used section has an address, sections that share a pool are disjoint, and no section's placement is changed after it was made.", "quantifier": "every list of sections, every machine layout (pools may be shared by several groups)", "why_tests_cant": "The placement procedure runs 55 passes over all sections; interactions are unbounded.", "anchors": ["xlink/assign.c: assign_Process"]}
{"id": "C10", "title": "Smart linking keeps exactly what is reachable", "statement": "With an entry symbol the linker keeps a section if and only if it is the entry section, a ROOT section or reachable from one of these through symbol references; marking terminates for cyclic references.", "quantifier": "every finite set of sections and references, including cycles", "why_tests_cant": "Reachability over arbitrary graphs.", "anchors": ["xlink/smart.c: smart_Process", "xlink/section.c: sect_FindSectionWithExportedSymbol, sect_FindSectionWithLocallyExportedSymbol"]}
{"id": "C11", "title": "Imported symbols get the exporter's value", "statement": "After linking, an imported symbol has the final address of a symbol of that name exported by a kept section; a local import only ever resolves to a symbol of the same source file; an import nobody exports is reported when it is used.", "quantifier": "every set of object files", "why_tests_cant": "Quantifies over all symbol tables and resolution orders (recursive resolution).", "anchors": ["xlink/section.c: resolveSymbol, sect_GetSymbol, sect_ResolveUnresolved"]}
{"id": "C12", "title": "Link-time expressions evaluate to their mathematical value", "statement": "Evaluating a patch expression at link time yields the value the source expression denotes (two's complement 32-bit), for every expression tree, with the operand order preserved.", "quantifier": "every expression tree over the supported operators whose operators are defined on their operands", "why_tests_cant": "Expression trees are unbounded; the linker runs a stack machine over a byte stream.", "anchors": ["xlink/patch.c: calculateExpressionValue", "xasm/motor/object.c: writeExpression"]}
{"id": "C13", "title": "Patches are range checked and touch only their bytes", "statement": "Applying an 8/16/32-bit patch stores the value in the requested byte order at the patch offset and changes no other byte; a value that does not fit is rejected and never silently truncated.", "quantifier": "every section content, offset, patch type and value", "why_tests_cant": "All 2^32 values and all offsets.", "anchors": ["xlink/patch.c: patchSection", "xasm/motor/patch.c: patch_8, patch_le_16, patch_be_16, patch_le_32, patch_be_32"]}
{"id": "C14", "title": "Assembler and linker agree on expression values", "statement": "An expression has the same value whether the assembler folds it while parsing, resolves it when back-patching, or leaves it to the linker.", "quantifier": "every operator and every pair of 32-bit operands on which C defines the operation; every expression tree", "why_tests_cant": "2^64 operand pairs per operator and unbounded trees.", "anchors": ["xasm/motor/expression.c", "xasm/motor/patch.c: reduceExpression", "xlink/patch.c: calculateExpressionValue"]}
{"id": "C15", "title": "Object files round-trip", "statement": "Reading an object file written by the assembler gives the linker exactly the groups, sections, symbols, line mappings, data and patches the assembler had, and consumes exactly the bytes that were written.", "quantifier": "every module whose strings contain no NUL and whose numbers fit in 32 bits", "why_tests_cant": "Structures are nested and unbounded; a single misread field shifts everything after it.", "anchors": ["xasm/motor/object.c: obj_Write and helpers", "xlink/object.c: obj_Read and helpers"]}
{"id": "C16", "title": "Old object versions are still read", "statement": "The linker reads object versions 0 to 5 with the fields those versions have, and supplies the documented defaults for the fields they lack.", "quantifier": "every version and every module", "why_tests_cant": "Seven formats times unbounded content.", "anchors": ["xlink/object.c: readSection, readSymbol, readChunk"]}
{"id": "C17", "title": "Library files round-trip", "statement": "Reading a library file written by the librarian gives back the same modules, names and contents in the same order.", "quantifier": "every list of modules with NUL-free names shorter than 256 bytes", "why_tests_cant": "Unbounded number and size of modules.", "anchors": ["xlib/library.c: readLib0, lib_Read, lib_Write"]}
{"id": "C18", "title": "The librarian behaves like a map from names to modules", "statement": "Adding a module makes lookup of its (path-stripped) name return the new contents and leaves all other names alone; replacing does not create duplicates; deleting removes exactly that name; deleting an absent name is an error that changes nothing.", "quantifier": "every history of add and delete commands", "why_tests_cant": "Histories are unbounded and list surgery differs for first, middle and last element.", "anchors": ["xlib/library.c: lib_AddReplace, lib_DeleteModule, lib_Find, truncateFileName"]}
{"id": "C19", "title": "A library behaves like the object files it contains", "statement": "Linking a library gives the linker the same sections, in the same order, as linking the contained object files separately.", "quantifier": "every library", "why_tests_cant": "Unbounded; depends on exact byte accounting between chunks.", "anchors": ["xlink/object.c: readXLB0, readChunk, obj_Read", "xlib/library.c: lib_Write"]}
{"id": "C20", "title": "Binary images contain each section at its offset", "statement": "In a written binary image every placed section's bytes appear at its image offset, every byte not covered by a section is 0xFF filler, and the size is a multiple of the requested padding.", "quantifier": "every set of placed, non-overlapping sections in any order", "why_tests_cant": "Depends on write order and gaps; unbounded.", "anchors": ["xlink/image.c: internalWriteBinary"]}
{"id": "C21", "title": "Game Boy header checksums verify", "statement": "After header update the header complement check and the global checksum of a Game Boy image satisfy the equations the hardware and emulators check.", "quantifier": "every image content of at least header size", "why_tests_cant": "All image contents.", "anchors": ["xlink/gameboy.c"]}
{"id": "C22", "title": "Sega and HC800 checksums verify", "statement": "The Mega Drive checksum word equals the sum of all words from $200 on, the Master System checksum equals the sum of all bytes outside the header, and the bytes of an HC800 kernal image sum to $A5 modulo 256; no other byte is changed.", "quantifier": "every image content", "why_tests_cant": "All image contents.", "anchors": ["xlink/sega.c", "xlink/hc800.c: updateKernalHeader"]}
{"id": "C23", "title": "Executable containers can be decoded back", "statement": "Decoding a CoCo .BIN, Foenix PGZ, Amiga hunk or HC800 executable written by the linker according to the published container format yields exactly the used sections' bytes at their addresses and the entry address.", "quantifier": "every list of placed sections", "why_tests_cant": "Container records are length-prefixed; one wrong length breaks every later record.", "anchors": ["xlink/coco.c", "xlink/foenix.c: writePGZSection", "xlink/amiga.c: writeExecutable", "xlink/hc800.c: writeDataHunks"]}
{"id": "C24", "title": "Sections are emitted in address order", "statement": "After placement the linker's section list is a permutation of the original, with used sections ordered by bank and address.", "quantifier": "every section list", "why_tests_cant": "All permutations.", "anchors": ["xlink/section.c: compareSections, sect_SortSections"]}
{"id": "C25", "title": "Memory layout files mean what they say", "statement": "A numeric expression in a memory layout file evaluates to its usual value (32-bit, usual precedence, left associative), and a file of POOL, POOLS, GROUP, SYMBOL and FORMATS lines sets up exactly the pools, groups, symbols and formats its lines describe.", "quantifier": "every expression over decimal/hexadecimal/binary literals, @, + - * / and parentheses; every file of such lines, with any spacing and comments", "why_tests_cant": "Unbounded expressions and files.", "anchors": ["xlink/machinedefinition.c: nextToken, parseInteger, parseExpression, parsePool, parseLine, mdef_Read"]}
{"id": "C26", "title": "Expression optimisation preserves meaning", "statement": "Simplifying an expression before writing the object file does not change its value, removes all parentheses nodes and leaves a tree whose serialisation is the postfix form of the expression.", "quantifier": "every expression tree", "why_tests_cant": "Unbounded trees.", "anchors": ["xasm/motor/expression.c: expr_Optimize", "xasm/motor/object.c: writeExpression", "xasm/motor/patch.c: patch_OptimizeAll"]}
{"id": "C27", "title": "Constants and labels are single-assignment", "statement": "Once a name is defined as EQU, label, string or macro, no later definition directive changes its value or type (only PURGE removes it); SET symbols always hold the last assigned value; an error leaves the symbol table unchanged.", "quantifier": "every history of definition, import, export, global and purge operations, in all scopes", "why_tests_cant": "Unbounded histories over eleven symbol types.", "anchors": ["xasm/motor/symbol.c"]}
{"id": "C28", "title": "Local symbols are private to their scope", "statement": "A local name (.x, x$) refers to different symbols under different preceding global labels, and never shadows or modifies a symbol of another scope.", "quantifier": "every history of definitions", "why_tests_cant": "Unbounded histories.", "anchors": ["xasm/motor/symbol.c: assumedScopeOf, getSymbol, findOrCreateSymbol"]}
{"id": "C29", "title": "Data directives append exactly their bytes", "statement": "Emitting bytes, words, longs, expressions or space appends exactly the encoded bytes in the selected byte order to the current section, leaves earlier bytes and other sections unchanged, keeps the program counter equal to the number of CPU words emitted, and never writes outside the allocated buffer.", "quantifier": "every history of emit operations, both byte orders, word sizes 1, 2 and 4", "why_tests_cant": "Unbounded histories crossing buffer growth boundaries.", "anchors": ["xasm/motor/section.c"]}
{"id": "C30", "title": "Raw binary output places sections correctly", "statement": "In direct binary output sections appear in source order without overlap, at their fixed address if they have one, otherwise at the next address satisfying alignment and page constraint; overlapping fixed sections are reported.", "quantifier": "every list of sections", "why_tests_cant": "Unbounded lists, modular arithmetic.", "anchors": ["xasm/motor/binaryobject.c: commonPatch, writeBinarySection"]}
{"id": "C31", "title": "Numeric literals denote their value", "statement": "A decimal, hexadecimal or binary literal in source denotes its positional value modulo 2^32 and consumes exactly the digits.", "quantifier": "every digit string of any length", "why_tests_cant": "Unbounded strings.", "anchors": ["xasm/motor/lexer.c: acceptNumericAndLocalLabel, asciiToRadixBinary, acceptVariadic"]}
{"id": "C32", "title": "Macro arguments are substituted textually", "statement": "Reading a macro body yields the body text with every \\0-\\9 replaced by the corresponding argument and \\@ by the invocation's unique value.", "quantifier": "every body text and argument list", "why_tests_cant": "Unbounded texts; push-back interacts with substitution.", "anchors": ["xasm/motor/lexer_buffer.c: lexbuf_GetChar", "xasm/motor/charstack.c"]}
{"id": "C33", "title": "Un-getting characters is transparent", "statement": "Reading characters and pushing them back leaves the remaining input unchanged, so that look-ahead in the lexer never loses, duplicates or reorders text.", "quantifier": "every input and every push-back sequence without NUL characters", "why_tests_cant": "All interleavings of reads and push-backs.", "anchors": ["xasm/motor/charstack.h", "xasm/motor/lexer_buffer.c: nextChar, peekChar, lexbuf_UnputChar, lexbuf_GetUnexpandedChar"]}
{"id": "C34", "title": "Conditional assembly skips to the matching directive", "statement": "When a condition is false the assembler continues exactly after the matching ELSE or ENDC at the same nesting level, whatever complete IF/MACRO/REPT blocks the skipped text contains; likewise for REPT and MACRO bodies.", "quantifier": "every well-nested directive stream of any depth", "why_tests_cant": "Unbounded nesting.", "anchors": ["xasm/motor/parse_block.c: skipToDirective, skipPastDirective"]}
{"id": "C35", "title": "Random numbers stay in range and are reproducible", "statement": "RAND(lo,hi) always returns a value between lo and hi, the generator never gets stuck at zero when seeded with a non-zero seed, and the sequence depends only on the seed.", "quantifier": "every seed and every lo<=hi whose range is representable", "why_tests_cant": "2^32 seeds times all ranges and unbounded sequences.", "anchors": ["xasm/motor/parse_expression.c: handleRandFunction"]}
{"id": "C36", "title": "Structure offsets do not overlap", "statement": "Names defined with RB/RW/RL after RSRESET/RSSET get consecutive offsets such that the areas reserved for different names are adjacent and disjoint, and the final counter is the structure size.", "quantifier": "every sequence of reservations", "why_tests_cant": "Unbounded sequences.", "anchors": ["xasm/motor/parse_symbol.c: parse_IncrementRs, createRsSymbol, createRsSetSymbol"]}
{"id": "C37", "title": "Operator precedence and associativity", "statement": "The expression parser builds the tree dictated by the documented precedence and left associativity; printing a tree with the necessary parentheses and parsing it again gives a tree with the same value.", "quantifier": "every expression tree", "why_tests_cant": "Unbounded trees.", "anchors": ["xasm/motor/parse_expression.c: expressionPriority0..9"]}
{"id": "C38", "title": "PC-relative operands are resolved consistently", "statement": "A PC-relative operand gets the same value whether the assembler resolves it immediately (fixed section), when back-patching (same section) or in the linker: target minus address of the operand plus adjustment.", "quantifier": "every section placement, target and adjustment (byte-addressed CPUs)", "why_tests_cant": "All placements.", "anchors": ["xasm/motor/expression.c: expr_PcRelative", "xasm/motor/patch.c: reducePcRelative", "xlink/patch.c: OBJ_PC_REL"]}
{"id": "C39", "title": "Symbol differences are independent of placement", "statement": "The difference of two labels in one section is a constant, known at assembly time, that equals the difference of their final addresses wherever the section is placed.", "quantifier": "every pair of labels, every placement", "why_tests_cant": "All placements.", "anchors": ["xasm/motor/expression.c: expr_Sub, expr_GetSectionOffset", "xasm/motor/patch.c: reduceSubtract", "xlink/patch.c: OBJ_OP_SUB"]}
{"id": "C40", "title": "String slicing follows the documented rules", "statement": "s.slice(start,count) yields exactly the characters from start (negative counts from the end) up to count characters, clamped to the string, for any integers.", "quantifier": "every string and every start and count", "why_tests_cant": "All integer combinations.", "anchors": ["xasm/motor/parse_string.c: stringExpressionPri1"]}
{"id": "C41", "title": "Line mappings identify the source line of every byte", "statement": "For every byte emitted, the last line mapping entry whose offset is not above the byte's offset names the file and line that emitted it, and consecutive entries differ.", "quantifier": "every emission history", "why_tests_cant": "Unbounded histories.", "anchors": ["xasm/motor/linemap.c: addEntry"]}
{"id": "C42", "title": "Commodore programs start under BASIC", "statement": "A .PRG file (Commodore and MEGA65) loads at the header address, contains one BASIC line that calls the start address, and has every section behind the BASIC stub at its image location.", "quantifier": "every start address below 100000, every header address of the form xx01, every set of sections", "why_tests_cant": "All start addresses (one to five digits) and all layouts.", "anchors": ["xlink/commodore.c: commodore_WritePrg, commodore_WriteMega65Prg"]}
{"id": "C43", "title": "F256 kernel user programs map to the right slots", "statement": "The header of a KUP file names the number of 8 KiB blocks, the first slot and the start address; when the blocks are mapped to consecutive slots every section is at its address.", "quantifier": "every set of sections in address order and every entry address", "why_tests_cant": "All layouts.", "anchors": ["xlink/foenix.c: foenix_WriteExecutableKUP"]}
{"id": "C44", "title": "Built-in memory maps keep sections apart", "statement": "With every built-in machine, no two sections in one bank share an address, no two sections with contents share a place in the image, and the image (or the memory after loading) has every section's bytes where its address says.", "quantifier": "every built-in machine and every list of sections that can be placed", "why_tests_cant": "All section lists for all machines.", "anchors": ["xlink/group.c: group_Setup*", "xlink/commodore.c: setup*", "xlink/foenix.c: foenix_Setup*", "xlink/main.c: handleMemoryConfigurationOption, handleLegacyTargetOption"]}
{"id": "C45", "title": "Linker options mean what is documented", "statement": "A command line is accepted exactly if every option is valid, one machine is selected, and the format is one the machine supports; files, root, entry and format are those of the last option, in whatever order the options come, and documented names are accepted.", "quantifier": "every sequence of options", "why_tests_cant": "Unbounded sequences in any order.", "anchors": ["xlink/main.c: handleOption, main"]}
{"id": "C46", "title": "Built-in memory maps are the documented ones", "statement": "The areas in which the sections of each group are placed are those in the documentation of the machine, and bank numbers of banked cartridges are the block numbers in the image.", "quantifier": "every built-in machine and group that the documentation has a table for", "why_tests_cant": "The tables are complete, every bank included.", "anchors": ["xlink/group.c: group_Setup*", "xlink/commodore.c: setup*", "xlink/foenix.c: foenix_Setup*", "doc/Linker*.md"]}
{"id": "C47", "title": "Labels stand for the address of the next byte", "statement": "A label is the address that the next byte will have: behind the last ORG if there is one, at the load address of the section if it has one, and an offset in the section otherwise, whatever was written before.", "quantifier": "every history of section, ORG and data directives, on machines with any word size", "why_tests_cant": "Unbounded histories; ORG, load addresses and banks combine.", "anchors": ["xasm/motor/symbol.c: sym_CreateLabel", "xasm/motor/section.c: sect_*"]}
{"id": "C48", "title": "Formatted values", "statement": "A value embedded in a string or printed denotes the value: a decimal format gives the decimal numeral with at least the asked number of digits, a hexadecimal one the last digits, a fixed point one the integer part and as many decimals as asked for, rounded down.", "quantifier": "every 32 bit value, format and precision", "why_tests_cant": "All values and precisions; the limits of the buffers matter.", "anchors": ["xasm/motor/parse_string.c: formatValue", "xasm/motor/parse_directive.c: handlePrintv, handlePrintf"]}
{"id": "C49", "title": "Conditions, repetitions and macros mean what their structure says", "statement": "Assembling a file of nested conditions, repetitions, macro definitions, calls and included files has exactly the effects of the structured program: one branch of every condition, the body of a repetition as often as asked for or up to REXIT, the body of a macro with its own arguments up to MEXIT or ENDM, and every context and repetition with its own unique value.", "quantifier": "every structured program, of any nesting and length, and every behaviour of the other statements", "why_tests_cant": "Unbounded nesting, repetition counts and calls; the code has a stack of text positions and skips text instead.", "anchors": ["xasm/motor/parse_directive.c: handleRept, handleEndr, handleRexit, handleMexit, handleShift, handleIf*, handleElse", "xasm/motor/lexer_context.c: lexctx_ProcessRepeatBlock, lexctx_EndReptBlock, lexctx_ProcessMacro, lexctx_EndCurrentBuffer, lexctx_ShiftMacroArgs", "xasm/motor/parse.c: parse_Until", "doc/ControlStructures.md"]}
{"id": "C50", "title": "Instructions of CHIP-8 and SUPER-CHIP are encoded as they are written", "statement": "A documented instruction with operands of the documented kinds is assembled into two bytes that the machine decodes as that instruction with those operands, exactly if the values of its expressions fit; other combinations of operands, and instructions that the selected machine does not have, are refused.", "quantifier": "every mnemonic, every list of operands with any readable expressions, both machines, every value of the symbols", "why_tests_cant": "All registers, expressions and values; the decoder is independent of the tables of the assembler.", "anchors": ["xasm/schip/schip_parse_instr.c: schip_ParseIntegerInstruction, handle*", "xasm/schip/schip_tokens.c: g_tokens", "doc/CpuCHIP.md"]}
{"id": "C51", "title": "Instructions of the DCPU-16 are encoded as they are written", "statement": "An instruction with operands of any of the modes of the processor is assembled into words that the processor decodes as that instruction with those operands, exactly if the values of its expressions fit, with and without optimisation; instructions with a missing operand or an operand that the processor does not have are refused.", "quantifier": "every mnemonic, every pair of operands with any readable expressions, both settings of the option, every value of the symbols", "why_tests_cant": "All registers, modes, expressions and values; the decoder is independent of the tables of the assembler.", "anchors": ["xasm/dcpu-16/dcpu16_parse.c: parseIntegerInstruction, addressingMode, indirectAddressing, optimizeAddressingMode, genericInstr, addSubInstr, jsrInstr", "xasm/dcpu-16/dcpu16_tokens.c: g_tokens", "doc/CpuDCPU.md"]}
{"id": "C52", "title": "Instructions of the MIPS32 are encoded as they are written", "statement": "An instruction written as in the manual is assembled into one word that the processor decodes as that instruction with those registers, numbers and targets, exactly if the numbers fit and the target can be reached; instructions with a missing register are refused.", "quantifier": "every mnemonic of the assembler, all registers by number and by name, any readable expressions, every value of the symbols and every address of the instruction", "why_tests_cant": "All registers, expressions, values and addresses; the decoder is independent of the tables of the assembler.", "anchors": ["xasm/mips/mips_parse_instr.c: mips_ParseIntegerInstruction, handle*", "xasm/mips/mips_tokens.c: g_tokens"]}
{"id": "C53", "title": "Instructions of the 6502, the 65C02 and the 65C02S are encoded as they are written", "statement": "An instruction of the selected processor with an operand that it has is assembled into the opcode of the data sheet for the smallest mode that the operand can have, followed by the operand, with branches counted from the next instruction, exactly if the operand fits; an operand that the instruction does not have, or an instruction of another processor, is not assembled.", "quantifier": "every instruction and every addressing mode of the three processors, every set of undocumented instructions, any readable expressions, every value of the symbols and every address of the instruction", "why_tests_cant": "All modes, expressions, values and addresses; the table of opcodes is written from the data sheets and independent of the tables of the assembler.", "anchors": ["xasm/6502/x65_parse_instr.c: g_instructionHandlers, x65_HandleToken, handle*", "xasm/6502/x65_parse_addrmode.c: x65_ParseAddressingMode", "xasm/6502/x65_tokens.c: g_tokens, g_undocumentedInstructions", "xasm/6502/x65_options.c: x65_ParseOption", "doc/Cpu6502.md"]}
{"id": "C54", "title": "What the assembler writes as an ELF object is what the linker reads", "statement": "An ELF object file that the assembler writes follows the System V ABI, and the linker makes sections of it that stand for the sections of the assembler: the same names, groups, addresses, alignments, sizes and contents, every label in its section, exported or for this file only, and every patch at its place with a value that is the value of its expression.", "quantifier": "every module of the assembler: any sections, symbols and patches, both byte orders, every address that the symbols get", "why_tests_cant": "Unbounded numbers of sections, symbols and patches; all names, sizes and expressions.", "anchors": ["xasm/motor/elf.c: elf_Write, writeSection, writeReloc, writeSymbolSection", "xasm/motor/expression.c: getSymbolOffset", "xlink/elf.c: elf_Read, readSections, resolveNamesAndIndices, elfToXlink, relocsToXlink"]}
{"id": "C55", "title": "What the assembler writes as an Amiga executable can be loaded", "statement": "AmigaDOS loads an executable that the assembler writes: there is one hunk for every section, of its type and size, in the kind of memory that the section asks for, and wherever the hunks are placed their memory holds the contents of the sections, with the values of all expressions in their places. It is written exactly if all expressions are addresses in its sections.", "quantifier": "every module of the assembler: any sections, symbols and patches, every address of the hunks", "why_tests_cant": "Unbounded numbers of sections and patches; all contents, sizes and addresses. The loader is written from the description of the format.", "anchors": ["xasm/motor/amigaobject.c: ami_WriteExecutable, writeSection, writeReloc32, writeSectionNames, fputstr, fputbuf", "xasm/motor/expression.c: expr_GetSectionOffset"]}
{"id": "C56", "title": "What the assembler writes as an Amiga object can be linked", "statement": "A linker reads an object that the assembler writes: the name of the source, one hunk for every section with its name, type and size, the labels of the section with their offsets, a definition for every exported label, and relocations and references which make the memory hold the values of all expressions, wherever hunks and symbols of other objects are placed.", "quantifier": "every module of the assembler: any sections, symbols and patches, every address of the hunks and of the imported symbols", "why_tests_cant": "Unbounded numbers of sections, symbols and patches; all names, contents, sizes and addresses. The reader is written from the description of the format.", "anchors": ["xasm/motor/amigaobject.c: ami_WriteObject, writeSection, writeReloc32, writeExtHunk, writeSymbolHunk", "xasm/motor/expression.c: expr_GetSectionOffset, expr_GetImportOffset"]}
{"id": "C57", "title": "Instructions of the Z80 and of the Game Boy are encoded as they are written", "statement": "A line with a mnemonic and operands becomes the bytes of the instruction, or for synthesized ones the instructions, that it means, so that the processor decodes them with the registers, conditions, numbers, displacements, bits and targets of the line, exactly if the numbers fit and the target can be reached; a line that means nothing, or an instruction that the selected processor does not have or that the options do not allow, is refused.", "quantifier": "every mnemonic with every list of operands: all registers and conditions, indexed, immediate, indirect and stack operands with any readable expressions, both processors and all options, every value of the symbols and every address of the instruction", "why_tests_cant": "All combinations of operands, expressions, values and addresses; what a line means and how the processors decode bytes is independent of the tables of the assembler.", "anchors": ["xasm/z80/z80_parse.c: z80_ParseInstruction, parseAddressingMode, handle*, g_instructions", "xasm/z80/z80_tokens.c: g_tokens", "xasm/z80/z80_options.c", "doc/CpuZ80.md"]}
{"id": "C58", "title": "Source text is divided into the longest tokens", "statement": "The assembler divides a line into labels, words, names, numbers, strings and characters from left to right, each token being as long as possible: a word that the text begins with is found whatever its case and however many words there are, and is preferred to a name that is not longer; a name in the first column is a label, the name of a string symbol with # stands for its contents, and blanks and comments separate tokens without being one. The table of words holds exactly the words that were defined and not undefined again.", "quantifier": "every list of words, every history of definitions, every text of a line in a file or in a macro with any arguments, every number of string symbols in it", "why_tests_cant": "Unbounded texts and tables of words; what the tokens of a line are is described by rules that do not mention the hash table, the characters put back or the bookmarks.", "anchors": ["xasm/motor/lexer.c: acceptNext, acceptLabel, acceptString, consumeComment, lex_GetNextToken", "xasm/motor/lexer_constants.c: lex_ConstantsMatchWord, lex_ConstantsDefineWord, lex_ConstantsUndefineWord, lex_ConstantsMatchTokenString", "xasm/motor/tokens.c: tokens_Init", "doc/Assembler.md", "doc/Symbols.md"]}
{"id": "C59", "title": "A line of source text becomes the bytes of its instruction", "statement": "The parser gets from a line whose parts are separated by blanks exactly these parts, whatever the case of its words, the base of its numbers and its comment; it replaces the names of string symbols by their contents. So the text of a line with an instruction of the Z80, of the Game Boy or of the 6809 becomes the bytes of the instruction that it means; operators are those of the documentation; and for every instruction with operands whose names can be used there is a line that is read as it.", "quantifier": "every line: any blanks, spellings of words and numbers, names, strings and comments; every instruction with any readable expressions, all options, values of the symbols and addresses", "why_tests_cant": "All texts, expressions, values and addresses; the way from characters to bytes goes through the scanner, the parser of expressions and the parser of instructions.", "anchors": ["xasm/motor/parse.c: parse_GetToken", "xasm/motor/lexer.c: lex_GetNextToken", "xasm/motor/parse_expression.c", "xasm/z80/z80_parse.c: z80_ParseInstruction"]}
{"id": "C60", "title": "Instructions of the 6809 are encoded as they are written", "statement": "A line with a mnemonic and an operand becomes the bytes of the instruction that it names, so that the processor decodes them with the same operation, registers, offset, address or target, exactly if the numbers fit and the target can be reached; a direct address stands for the page that SETDP has announced. A line with an operand that the processor does not have for the instruction is refused, and every opcode of the processor can be written.", "quantifier": "every mnemonic with every operand: immediate, direct, extended, indexed with all registers and offsets, indirect, relative, pairs and lists of registers, with any readable expressions, every direct page, every value of the symbols and every address of the instruction", "why_tests_cant": "All combinations of operands, expressions, values and addresses; the opcodes, the post bytes and the decoder are written from the data sheet, not from the tables of the assembler.", "anchors": ["xasm/6809/m6809_parse_instr.c: m6809_ParseIntegerInstruction, g_instructionHandlers, emitOpcode, emitIndexed, handle*", "xasm/6809/m6809_parse_addrmode.c: m6809_ParseAddressingMode", "xasm/6809/m6809_parse_directive.c: handleSETDP", "xasm/6809/m6809_tokens.c", "doc/Cpu6809.md"]}
{"id": "C61", "title": "A program becomes the bytes that its statements stand for", "statement": "If a program is accepted by the assembler and its sections are placed by the linker, every section contains the bytes of its statements one behind the other: numbers as they are, and every expression as the number that it has when labels are the address of their section plus the number of bytes in front of them. This is independent of what the assembler folded, optimised, patched or left to the linker. A line of text with an instruction thereby becomes bytes that the processor reads as this instruction with the final addresses.", "quantifier": "every sequence of labels, EQU, SET, EXTERN, GLOBAL, instructions, data and section directives; every placement of the sections and every value of imported symbols; text of instructions of the Z80 and the 6809", "why_tests_cant": "All programs and placements; composes the scanner, the parsers, the symbol table, expressions, sections, patches of the assembler and patches of the linker.", "anchors": ["xasm/motor/parse.c: parse_Until", "xasm/motor/symbol.c: sym_CreateLabel, sym_CreateEqu, sym_CreateSet, sym_Import, sym_Global", "xasm/motor/section.c: sect_Output*", "xasm/motor/patch.c: patch_OptimizeAll, patch_BackPatch", "xasm/motor/object.c: writeExpression", "xlink/patch.c: patchSection"]}
{"id": "C62", "title": "Programs that are linked refer to each other", "statement": "If several programs are assembled one by one and linked, every section contains the bytes of its statements as in C61, where a symbol of the same program stands for its address and an imported symbol for the value of the symbol of that name which another program exports. The numbers of symbols in the object file, the local and exported entries, the search of the linker and its order of resolving do not matter. This needs that the names which a section takes from other sections of its own program are unique.", "quantifier": "every list of programs as in C61, every order and placement of their sections, every order of the table of symbols and every sequence in which symbols are resolved", "why_tests_cant": "All programs, placements and orders; a wrong number of a symbol or a wrong match of names shows only for certain combinations of sections and scopes.", "anchors": ["xasm/motor/object.c: markLocalExports, writeSymbolsWithFlags, writeSymbols, writeSectionSymbols, writeExportedConstantsSection, writeExpression", "xlink/object.c: readSymbol", "xlink/section.c: resolveSymbol, sect_GetConstantSymbolBank", "xlink/patch.c: OBJ_SYMBOL"]}
{"id": "C63", "title": "Instructions of the RC8 do what they say", "statement": "A line with a mnemonic, possibly a condition, and operands becomes bytes which, when the processor executes them, have the effect that the line names, and nothing else: also where the assembler puts a line together from several instructions, such as words in memory, pointers that move, exchanges, lists of registers on the stack and numbers of two bytes. If the condition does not hold, the program goes on behind the line and nothing has changed. The bytes exist exactly if the value fits the instruction and the target can be reached.", "quantifier": "all lines of the RC8: every mnemonic, condition and list of operands with any readable expressions, every value of the symbols, every address, every state of the processor and every program around the line", "why_tests_cant": "All combinations of operands, conditions and values; that a sequence of instructions equals one instruction must hold for all contents of registers, memory and stack.", "anchors": ["xasm/rc8/rc8_parse_instr.c: rc8_ParseIntegerInstruction, handle_*, parseAddressingMode", "xasm/rc8/rc8_tokens.c", "test/rc8/allcodes.rc8", "test/rc8/synthesized.rc8"]}
{"id": "C64", "title": "POPO restores what PUSHO has saved", "statement": "Whatever options are set between PUSHO and its POPO, by OPT or by directives of the processor, and however deeply PUSHO and POPO are nested, afterwards all options are what they were before: byte order, characters of binary numbers, byte for space that is not initialized, alignment, warnings that are switched off, debug information and the options of the processor. So are the words that the processor defines for its options, and no internal error is met in removing them. POPO without PUSHO changes nothing and gives a warning. An option changes only what its letter is for, and a warning that is switched off is not given while all others are. If the options of a 6502, 65C02 or 65C02S have been set without any message, they are among those for which C53 specifies the instructions. For the 680x0, OPT and POPO give an error if and only if the coprocessor does not fit the processor, and create the groups of the platform. In every state the options are those of one processor, at most one coprocessor and one platform. The options of the Z80, the DCPU-16, MIPS and CHIP-8 set what the documentation and the help texts say, also the characters for graphics, and other texts set nothing and give a message. What is not set has a default that does not depend on the memory.", "quantifier": "every sequence of OPT, PUSHO, POPO, BITS and SETBP, every nesting, every text of an option and every state that a source can reach", "why_tests_cant": "The words of a processor are removed and defined again by differences between the previous and the current options, so an error depends on the order in which options are set, saved and restored; tests use few orders.", "anchors": ["xasm/motor/options.c: opt_Push, opt_Pop, opt_Parse, copyOptions", "xasm/motor/parse_directive.c: handleOpt, handlePusho, handlePopo", "xasm/6502/x65_options.c: x65_OptionsUpdated, x65_ParseOption", "xasm/680x0/m68k_options.c: m68k_OptionsUpdated, m68k_ParseOption", "xasm/z80/z80_options.c: z80_SetDefaultOptions, z80_ParseOption", "xasm/dcpu-16/dcpu16_options.c: x10c_SetDefaults, x10c_ParseOption", "xasm/mips/mips_options.c: mips_ParseOption", "xasm/schip/schip_options.c: schip_ParseOption", "xasm/motor/lexer_constants.c: lex_ConstantsUndefineWords, lex_ConstantsDefineWords", "xasm/motor/errors.c: err_Warn", "doc/Assembler.md"]}
