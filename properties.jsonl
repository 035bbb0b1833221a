{"id": "C01", "title": "Executable allocations never overlap", "statement": "Every non-NULL pointer returned by sljit_malloc_exec(n) designates n bytes that lie inside memory obtained from the system, do not intersect any other block that is currently allocated, and contain no allocator bookkeeping word.", "quantifier": "all sequences of sljit_malloc_exec / sljit_free_exec / sljit_free_unused_memory_exec calls (any sizes below the wrap-around limit), every behaviour of the system page allocator including failure at any call, and arbitrary writes by the client inside its own blocks", "why_tests_cant": "Overlap depends on the whole history of splits and merges; a test explores a handful of histories.", "anchors": ["sljit_src/allocator_src/sljitExecAllocatorCore.c: sljit_malloc_exec, sljit_free_exec"]}
{"id": "C02", "title": "Allocator operations do not touch client data or unmap live blocks", "statement": "No allocator call changes a byte of a block that stays allocated, and no call hands back to the system a chunk that contains an allocated block.", "quantifier": "all call histories and all client data", "why_tests_cant": "A corrupting write is only visible in the one history where a boundary tag lands inside a live block.", "anchors": ["sljit_src/allocator_src/sljitExecAllocatorCore.c: sljit_malloc_exec, sljit_free_exec, sljit_free_unused_memory_exec"]}
{"id": "C03", "title": "Freed executable memory is always fully coalesced", "statement": "After any call, two neighbouring blocks of a chunk are never both free; in particular once every block of a chunk has been freed the chunk consists of exactly one free block.", "quantifier": "all call histories", "why_tests_cant": "Fragmentation bugs need particular free orders.", "anchors": ["sljit_src/allocator_src/sljitExecAllocatorCore.c: sljit_free_exec"]}
{"id": "C04", "title": "Allocator accounting is exact", "statement": "The internal allocated-size and total-size counters always equal the sum of the sizes of the allocated blocks and the sum of the usable sizes of the mapped chunks, so the release heuristic is evaluated on true values.", "quantifier": "all call histories", "why_tests_cant": "Drift accumulates only over long histories.", "anchors": ["sljit_src/allocator_src/sljitExecAllocatorCore.c: sljit_allocated_size, sljit_total_size"]}
{"id": "C05", "title": "sljit_free_unused_memory_exec releases exactly the unused chunks", "statement": "After sljit_free_unused_memory_exec every still mapped chunk contains at least one allocated block, and no chunk with an allocated block was released.", "quantifier": "all call histories", "why_tests_cant": "Depends on free list order and history.", "anchors": ["sljit_src/allocator_src/sljitExecAllocatorCore.c: sljit_free_unused_memory_exec"]}
{"id": "C06", "title": "Executable allocation of an absurd size fails cleanly", "statement": "sljit_malloc_exec(n) returns NULL or a block of at least n bytes for every n, including n close to 2^64.", "quantifier": "all request sizes n < 2^64", "why_tests_cant": "The failing sizes are a handful of values at the top of the address range.", "anchors": ["sljit_src/allocator_src/sljitExecAllocatorCore.c: ALIGN_SIZE, sljit_malloc_exec", "sljit_src/allocator_src/sljitWXExecAllocatorPosix.c: sljit_malloc_exec"]}
{"id": "C07", "title": "sljit_stack bounds are respected", "statement": "After sljit_allocate_stack succeeds and after any sequence of sljit_stack_resize calls: min_start <= start < end holds, top and end never move, the reserved area is at least max_size bytes, a rejected resize leaves the stack unchanged and an accepted one sets start to exactly the requested address; the memory advised away never intersects the live part [start, end).", "quantifier": "all start/max sizes, page sizes that are powers of two, all resize sequences and all OS results", "why_tests_cant": "Page rounding corner cases and sequences of grows and shrinks are unbounded.", "anchors": ["sljit_src/sljitUtils.c: sljit_allocate_stack, sljit_stack_resize"]}
{"id": "C08", "title": "Emitted code is kept in order, once, and never moves while it is being built", "statement": "The byte sequence seen by the code generator is exactly the concatenation, in call order, of everything the emit functions wrote, whatever the fragment boundaries are; a pointer handed out by the instruction buffer stays valid until the compiler is freed.", "quantifier": "all sequences of buffer requests of any sizes", "why_tests_cant": "Fragment boundaries occur only at particular cumulative sizes.", "anchors": ["sljit_src/sljitLir.c: ensure_buf, ensure_abuf, reverse_buf, sljit_create_compiler"]}
{"id": "C09", "title": "Errors are sticky", "statement": "Once a compiler has recorded an error every later emit call returns that first error, emits nothing, and code generation returns NULL.", "quantifier": "all call sequences and all failure points", "why_tests_cant": "Needs failure injection at each allocation of each sequence.", "anchors": ["sljit_src/sljitLir.c: CHECK_ERROR, ensure_buf, ensure_abuf, sljit_set_compiler_memory_error, sljit_alloc_memory", "sljit_src/sljitNativeRISCV_common.c: sljit_generate_code"]}
{"id": "C10", "title": "Compiler memory is released exactly once", "statement": "For every sequence of calls and every set of failing allocations, after sljit_free_compiler each heap block obtained by the compiler has been freed exactly once; nothing is freed before it.", "quantifier": "all call sequences, all malloc failure schedules", "why_tests_cant": "Exponentially many failure schedules.", "anchors": ["sljit_src/sljitLir.c: sljit_create_compiler, sljit_free_compiler, ensure_buf, ensure_abuf", "sljit_src/sljitSerialize.c: sljit_deserialize_compiler"]}
{"id": "C11", "title": "Serialization round-trips", "statement": "Deserializing a buffer produced by sljit_serialize_compiler yields a compiler with the same pending instructions, labels (numbers, sizes, alignment), jumps (source, target label or address, flags), constants and options, so that both generate the same code.", "quantifier": "all compiler states reachable before code generation", "why_tests_cant": "Unbounded number of programs; field omissions are invisible for programs that do not use the field.", "anchors": ["sljit_src/sljitSerialize.c: sljit_serialize_compiler, sljit_deserialize_compiler"]}
{"id": "C12", "title": "Deserialization never reads or writes out of bounds", "statement": "For any byte string and size, sljit_deserialize_compiler either rejects it or reads only inside the given buffer and writes only inside memory it allocated.", "quantifier": "all byte strings", "why_tests_cant": "Input space is unbounded; the bad strings are adversarial.", "anchors": ["sljit_src/sljitSerialize.c: sljit_deserialize_compiler"]}
{"id": "C13", "title": "A deserialized compiler accepts the same continuation", "statement": "Every emit call that is legal on the serialized compiler is legal (accepted by the argument checker) on the deserialized one.", "quantifier": "all compiler states and next calls", "why_tests_cant": "Only visible for continuations that use the lost field.", "anchors": ["sljit_src/sljitSerialize.c: sljit_deserialize_compiler", "sljit_src/sljitLir.c: FUNCTION_CHECK_IS_FREG"]}
{"id": "C14", "title": "Status flag discipline", "statement": "With argument checking enabled a conditional jump / op_flags / select on condition c is accepted if and only if the most recent flag-defining instruction in the emitted stream set a flag that defines c (or its complement) and no label or flag-destroying instruction came in between.", "quantifier": "all sequences of emit calls and all conditions", "why_tests_cant": "Sequences are unbounded.", "anchors": ["sljit_src/sljitLir.c: check_sljit_emit_op1, check_sljit_emit_op2, check_sljit_emit_jump, check_sljit_emit_op_flags, check_sljit_emit_select"]}
{"id": "C15", "title": "Loading any word constant is exact (RISC-V 64)", "statement": "The instruction sequence emitted to load an immediate leaves exactly that 64 bit value in the destination register and changes no other register except the designated temporary.", "quantifier": "all 2^64 values, all destination registers", "why_tests_cant": "2^64 values.", "anchors": ["sljit_src/sljitNativeRISCV_64.c: load_immediate", "sljit_src/sljitNativeRISCV_common.c: load_immediate32"]}
{"id": "C16", "title": "Rewritable constants (RISC-V 64)", "statement": "Code emitted by sljit_emit_const loads init_value; after sljit_set_const(addr, k) the very same code loads k and no byte outside the constant sequence is modified.", "quantifier": "all initial values, all new values, any number of rewrites", "why_tests_cant": "2^128 pairs.", "anchors": ["sljit_src/sljitNativeRISCV_64.c: emit_const, sljit_set_const", "sljit_src/sljitNativeRISCV_common.c: sljit_emit_const"]}
{"id": "C17", "title": "Rewritable jumps (RISC-V 64)", "statement": "After sljit_set_jump_addr(addr, t) the jump sequence transfers control to exactly t and clobbers only scratch registers; the patch fits in the reserved bytes.", "quantifier": "all old and new target addresses", "why_tests_cant": "2^64 targets.", "anchors": ["sljit_src/sljitNativeRISCV_64.c: sljit_set_jump_addr", "sljit_src/sljitNativeRISCV_common.c: generate_jump_or_mov_addr"]}
{"id": "C18", "title": "Every jump lands on its label", "statement": "In generated code each jump, call, mov_addr and address constant refers to the final address of its label (or the given absolute target), whatever short/long form was selected for it and for all other jumps.", "quantifier": "all programs (any number of instructions, jumps, labels, alignment requests) and all load addresses", "why_tests_cant": "The choice of form depends on all distances at once; boundary distances are rare.", "anchors": ["sljit_src/sljitNativeRISCV_common.c: reduce_code_size, detect_jump_type, load_addr_to_reg, sljit_generate_code"]}
{"id": "C19", "title": "Generated code fits the buffer that was allocated for it", "statement": "The number of bytes written while generating code never exceeds the size requested from sljit_malloc_exec, and no instruction is overwritten by a later one.", "quantifier": "all programs and load addresses", "why_tests_cant": "Depends on size estimates made before addresses are known.", "anchors": ["sljit_src/sljitNativeRISCV_common.c: reduce_code_size, sljit_generate_code"]}
{"id": "C20", "title": "Integer arithmetic results (RISC-V 64)", "statement": "For each two operand operation (ADD, ADDC, SUB, SUBC, MUL, AND, OR, XOR) and each combination of register/immediate operands, the destination receives the documented result modulo 2^64 (2^32 for 32 bit forms, sign extended).", "quantifier": "all operand values, all immediates, all register assignments including aliasing", "why_tests_cant": "2^128 operand pairs times immediates.", "anchors": ["sljit_src/sljitNativeRISCV_common.c: emit_op, emit_single_op"]}
{"id": "C21", "title": "Status flags (RISC-V 64)", "statement": "After an operation with SLJIT_SET_* the requested zero, signed/unsigned comparison, overflow or carry status equals the mathematical definition on the operands.", "quantifier": "all operand values and operand forms", "why_tests_cant": "Corner cases are sparse in 2^128.", "anchors": ["sljit_src/sljitNativeRISCV_common.c: emit_single_op, get_jump_instruction"]}
{"id": "C22", "title": "Multi-word arithmetic with carry (RISC-V 64)", "statement": "A chain ADD|SET_CARRY, ADDC|SET_CARRY, ..., ADDC computes the exact multi-word sum, and likewise SUB/SUBC the exact difference.", "quantifier": "all word counts and all word values", "why_tests_cant": "Unbounded number of words.", "anchors": ["sljit_src/sljitNativeRISCV_common.c: emit_single_op SLJIT_ADD/ADDC/SUB/SUBC"]}
{"id": "C23", "title": "Shifts and rotates (RISC-V 64)", "statement": "SHL/LSHR/ASHR/ROTL/ROTR and the masking variants return the mathematical shift/rotation of the operand for every permitted shift amount (any amount for the masking variants).", "quantifier": "all operand values and shift amounts, register or immediate", "why_tests_cant": "2^64 * 64 combinations.", "anchors": ["sljit_src/sljitNativeRISCV_common.c: emit_single_op, emit_op"]}
{"id": "C24", "title": "Bit counting and byte reversal (RISC-V 64)", "statement": "CLZ/CTZ return the number of leading/trailing zero bits (word size for zero) and REV* reverse the byte order of the selected width with the documented extension.", "quantifier": "all operand values, with and without bit-manipulation extensions", "why_tests_cant": "2^64 values.", "anchors": ["sljit_src/sljitNativeRISCV_common.c: emit_clz_ctz, emit_rev, emit_rev16, emit_single_op"]}
{"id": "C25", "title": "Memory operands address the right bytes (RISC-V 64)", "statement": "For every addressing form (absolute, base+offset, base+index<<shift) the emitted access reads or writes exactly the documented effective address with the documented width and extension, and no register other than the destination changes.", "quantifier": "all base/index/offset values and registers, all data widths", "why_tests_cant": "2^192 address combinations.", "anchors": ["sljit_src/sljitNativeRISCV_common.c: emit_op_mem, emit_op_mem2, getput_arg, getput_arg_fast, can_cache, push_mem_inst"]}
{"id": "C26", "title": "Instruction operands are read before the destination is written", "statement": "An operation whose destination register also occurs in a source operand (as value, base or index) uses the old value.", "quantifier": "all register assignments and addressing forms", "why_tests_cant": "The number of aliasing patterns times values.", "anchors": ["sljit_src/sljitNativeRISCV_common.c: emit_op, sljit_emit_select, sljit_emit_shift_into"]}
{"id": "C27", "title": "Double-width shifts (shift_into)", "statement": "sljit_emit_shift_into leaves (src1 << n) | (src2 >> (w - n)) (or the mirrored right form) in dst for every n.", "quantifier": "all values, shift amounts, register aliasing", "why_tests_cant": "2^128 * 64 combinations.", "anchors": ["sljit_src/sljitNativeRISCV_common.c: sljit_emit_shift_into", "sljit_src/sljitLir.c: check_sljit_emit_shift_into"]}
{"id": "C28", "title": "Compare-and-branch", "statement": "sljit_emit_cmp(type, a, b) branches if and only if the relation named by type holds between a and b, for register, immediate and memory operands, in 64 and 32 bit mode.", "quantifier": "all operand values and forms, all conditions", "why_tests_cant": "Corner cases sparse.", "anchors": ["sljit_src/sljitNativeRISCV_common.c: sljit_emit_cmp", "sljit_src/sljitLir.c: sljit_emit_cmp"]}
{"id": "C29", "title": "Materialized conditions and conditional moves", "statement": "sljit_emit_op_flags writes 1 or 0 (or combines it with dst) exactly according to the condition; sljit_emit_select yields src1 when the condition holds and src2 otherwise.", "quantifier": "all conditions, flag producing operations and operand values", "why_tests_cant": "Product space.", "anchors": ["sljit_src/sljitNativeRISCV_common.c: sljit_emit_op_flags, sljit_emit_select"]}
{"id": "C30", "title": "Calling convention: callee-saved state is preserved", "statement": "A generated function returns with the stack pointer and every callee-saved integer and float register holding their entry values, and control goes to the return address, for every frame shape.", "quantifier": "all counts of scratch/saved registers, local sizes up to the maximum, options, and all bodies that do not write outside their frame", "why_tests_cant": "Frame shapes times register values.", "anchors": ["sljit_src/sljitNativeRISCV_common.c: sljit_emit_enter, emit_stack_frame_release, sljit_emit_return_void"]}
{"id": "C31", "title": "Locals are private to the frame", "statement": "Accesses through SLJIT_MEM1(SLJIT_SP) with offsets below local_size never overlap the saved registers or the caller frame.", "quantifier": "all frame shapes and offsets", "why_tests_cant": "Unbounded shapes.", "anchors": ["sljit_src/sljitNativeRISCV_common.c: sljit_emit_enter", "sljit_src/sljitLir.c: ADJUST_LOCAL_OFFSET"]}
{"id": "C32", "title": "Function arguments arrive in the documented registers", "statement": "After sljit_emit_enter the n-th word argument is in S(n) (or R(n) for _R arguments) for every legal argument descriptor.", "quantifier": "all argument type descriptors and values", "why_tests_cant": "Descriptor space times values.", "anchors": ["sljit_src/sljitNativeRISCV_common.c: sljit_emit_enter"]}
{"id": "C33", "title": "Call argument shuffling is a parallel move", "statement": "At a sljit_emit_call or sljit_emit_icall site every argument register of the callee's convention (C convention for SLJIT_CALL, sljit's own registers for SLJIT_CALL_REG_ARG) receives the value its source register had before the call sequence, and the jump goes to the value the target register had, although sources, destinations and target overlap.", "quantifier": "all argument descriptors of up to four arguments, all target registers, all register values; MIPS64, PPC64, x86-64 (System V, Windows), ARM32 and Thumb-2 with VFP", "why_tests_cant": "Overlap patterns.", "anchors": ["sljit_src/sljitNativeMIPS_64.c: call_with_args", "sljit_src/sljitNativePPC_64.c: call_with_args", "sljit_src/sljitNativeX86_64.c: call_with_args", "sljit_src/sljitNativeARM_32.c: hardfloat_call_with_args", "sljit_src/sljitNativeARM_T2_32.c: hardfloat_call_with_args"]}
{"id": "C34", "title": "Multiply/divide pairs (op0)", "statement": "LMUL/DIVMOD/DIV produce the exact double width product / quotient and remainder in R0 and R1.", "quantifier": "all operand values", "why_tests_cant": "2^128.", "anchors": ["sljit_src/sljitNativeRISCV_common.c: sljit_emit_op0"]}
{"id": "C35", "title": "x86-64 operand encodings", "statement": "The bytes emitted for an operand decode, by the Intel encoding rules, to exactly the register / immediate / memory operand requested, including the special cases of RSP, RBP, R12, R13 and displacement widths.", "quantifier": "all registers, offsets, scales and operand sizes", "why_tests_cant": "Encoding special cases interact.", "anchors": ["sljit_src/sljitNativeX86_64.c: emit_x86_instruction", "sljit_src/sljitNativeX86_common.c"]}
{"id": "C36", "title": "Loading any word constant is exact (x86-64, ARM64, ARM32, Thumb-2, MIPS64, PPC64, LoongArch64, S390X)", "statement": "For each back end the sequence emitted for an immediate yields exactly this immediate.", "quantifier": "all 2^64 (2^32) values, all destination registers", "why_tests_cant": "2^64 values.", "anchors": ["sljit_src/sljitNativeARM_64.c: load_immediate", "sljit_src/sljitNativeMIPS_64.c: load_immediate", "sljit_src/sljitNativePPC_64.c: load_immediate", "sljit_src/sljitNativeLOONGARCH_64.c: load_immediate", "sljit_src/sljitNativeS390X.c: push_load_imm_inst", "sljit_src/sljitNativeARM_32.c: load_immediate", "sljit_src/sljitNativeARM_T2_32.c: load_immediate", "sljit_src/sljitNativeX86_64.c: emit_load_imm64, emit_do_imm32"]}
{"id": "C37", "title": "Immediate encodability tests are sound (ARM)", "statement": "Whenever the ARM back ends choose an encoded immediate (ARM64 bitmask immediate, ARM32 rotated immediate, Thumb-2 modified immediate), the architectural decoder expands the chosen field to exactly the requested constant.", "quantifier": "all constants", "why_tests_cant": "2^64 constants.", "anchors": ["sljit_src/sljitNativeARM_64.c: logical_imm", "sljit_src/sljitNativeARM_32.c: get_imm", "sljit_src/sljitNativeARM_T2_32.c: get_imm"]}
{"id": "C38", "title": "Float/word comparison operand swapping is sound (generic)", "statement": "Where the generic layer swaps operands of a comparison, it also mirrors the condition, so the relation tested is unchanged.", "quantifier": "all conditions and operand values", "why_tests_cant": "Finite but usually untested table combined with unbounded operands.", "anchors": ["sljit_src/sljitLir.c: sljit_emit_cmp, sljit_emit_fcmp"]}
{"id": "C39", "title": "Argument checker accepts only well-formed register operands", "statement": "With argument checking enabled an operand accepted as register/memory operand only mentions registers that the current function declared.", "quantifier": "all operands and all contexts", "why_tests_cant": "2^64 operand encodings.", "anchors": ["sljit_src/sljitLir.c: function_check_src, function_check_dst, FUNCTION_CHECK_IS_REG"]}
{"id": "C40", "title": "Label addresses reported to the user are executable addresses", "statement": "sljit_get_label_addr returns the executable (not the writable) address of the label, also for labels at the end of the code and for allocators with an executable offset.", "quantifier": "all programs, all exec offsets, all back ends", "why_tests_cant": "Only the combination label-at-end plus non-zero offset shows a difference.", "anchors": ["sljit_src/sljitNativeRISCV_common.c: sljit_generate_code", "sljit_src/sljitNativeMIPS_common.c: sljit_generate_code", "sljit_src/sljitNativeLOONGARCH_64.c: sljit_generate_code"]}
{"id": "C41", "title": "Reported code size is the real code size", "statement": "sljit_get_generated_code_size returns the number of bytes of generated code.", "quantifier": "all programs", "why_tests_cant": "Every program has a different size; tests do not look at it.", "anchors": ["sljit_src/sljitNativeRISCV_common.c: sljit_generate_code", "sljit_src/sljitLir.c: sljit_get_generated_code_size"]}
{"id": "C42", "title": "Write/execute permission toggling covers exactly the affected pages", "statement": "The page range whose protection is changed around a patch contains the whole patched range, is page aligned, and contains no page without a patched byte.", "quantifier": "all ranges and page sizes", "why_tests_cant": "Alignment corner cases.", "anchors": ["sljit_src/allocator_src/sljitWXExecAllocatorPosix.c: sljit_update_wx_flags"]}
{"id": "C43", "title": "W^X allocator maps and unmaps in pairs", "statement": "With the W^X allocator, after any sequence of sljit_malloc_exec and sljit_free_exec calls there is exactly one system mapping per live block, it contains the whole block, the mappings are disjoint, and sljit_free_exec gives back exactly the mapping created for the block; also when the system forbids executable memory nothing is leaked.", "quantifier": "all histories, sizes up to 2^64-9, system answers, and client writes to its own blocks", "why_tests_cant": "Histories and system answers are unbounded.", "anchors": ["sljit_src/allocator_src/sljitWXExecAllocatorPosix.c: sljit_malloc_exec, sljit_free_exec, generic_check_is_wx_block"]}
{"id": "C44", "title": "Kept saved registers are declared", "statement": "With argument checking enabled, sljit_emit_enter and sljit_set_context accept SLJIT_ENTER_KEEP(n) only if at least n saved word registers are declared.", "quantifier": "all options, scratches and saveds arguments", "why_tests_cant": "Depends on the combination of packed fields of the saveds argument.", "anchors": ["sljit_src/sljitLir.c: check_sljit_emit_enter, check_sljit_set_context"]}
{"id": "C45", "title": "ARM32 binary operations compute the specified result", "statement": "On ARM32 (ARMv6 and ARMv7), the code emitted by sljit_emit_op2, sljit_emit_op2u, sljit_emit_op2r(SLJIT_MULADD) and sljit_emit_shift_into runs to its end, writes the documented result modulo 2^32 to the destination, changes no other register of the user and no other byte of memory, and leaves the machine flags such that every condition enabled by SLJIT_SET_Z / SLJIT_SET_* evaluates as documented.", "quantifier": "all operations, flags, register / constant / memory operand combinations (including overlapping ones), register and memory contents", "why_tests_cant": "Constants select among encodings (modified immediates, complements, negations, pairs of immediates, literals), displacements among addressing sequences; the combinations with states cannot be enumerated.", "anchors": ["sljit_src/sljitNativeARM_32.c: sljit_emit_op2, sljit_emit_op2u, sljit_emit_op2r, sljit_emit_shift_into, emit_op, emit_single_op, emit_op_mem, load_immediate, get_imm, compute_imm, get_cc"]}
{"id": "C46", "title": "x86-64 binary operations compute the specified result", "statement": "On x86-64, the bytes emitted by sljit_emit_op2, sljit_emit_op2u, sljit_emit_op2r(SLJIT_MULADD) and sljit_emit_shift_into run to their end, write the documented result (modulo 2^32 or 2^64) to the destination, change no other register of the user and no other byte of memory, and leave the machine flags such that every condition enabled by SLJIT_SET_Z / SLJIT_SET_* evaluates as documented.", "quantifier": "all operations, flags, register / constant / memory operand combinations (including overlapping ones), register and memory contents, System V and Windows register maps", "why_tests_cant": "The number of operand combinations (operand kinds, overlaps, constant ranges, displacement ranges) times the number of states; each selects another instruction sequence.", "anchors": ["sljit_src/sljitNativeX86_common.c: sljit_emit_op2, sljit_emit_op2u, sljit_emit_op2r, sljit_emit_shift_into, emit_cum_binary, emit_non_cum_binary, emit_mul, emit_lea_binary, emit_cmp_binary, emit_test_binary, emit_shift, emit_shift_with_flags, get_jump_code", "sljit_src/sljitNativeX86_64.c: emit_x86_instruction"]}
{"id": "C47", "title": "ARM64 integer operations compute the specified result", "statement": "On ARM64, the code emitted by sljit_emit_op0 (multiplication and division), sljit_emit_op1, sljit_emit_op2, sljit_emit_op2u, sljit_emit_op2r(SLJIT_MULADD), sljit_emit_shift_into, sljit_emit_op_flags and sljit_emit_select runs to its end, writes the documented result (modulo 2^32 or 2^64) to the destination, changes no other register of the user and no other byte of memory, and leaves the machine flags such that every condition enabled by SLJIT_SET_Z / SLJIT_SET_* evaluates as documented.", "quantifier": "all operations, flags, register / constant / memory operand combinations (including overlapping ones), register and memory contents", "why_tests_cant": "Constants select among encodings (shifted 12 bit values, bitmask immediates, negations, move wide sequences), displacements among addressing sequences; the combinations with states cannot be enumerated.", "anchors": ["sljit_src/sljitNativeARM_64.c: sljit_emit_op0, sljit_emit_op1, sljit_emit_op2, sljit_emit_op2u, sljit_emit_op2r, sljit_emit_shift_into, sljit_emit_op_flags, sljit_emit_select, emit_op_imm, emit_op_mem, load_immediate, logical_imm, get_cc"]}
{"id": "C48", "title": "A generated function does what its sequence of API calls says", "statement": "A function built by sljit_emit_enter, any sequence of integer API calls (op0, op1, op2, op2u, shift_into, op_flags, select, labels, jumps, conditional jumps, compares, returns) and sljit_generate_code on RV64 behaves as the step by step reading of those calls: called by the C calling convention with arguments in the argument registers, it reaches every state the reading reaches (same register and memory values), and when the reading returns a value v, the code returns to its caller with v in the result register, the stack pointer and the callee saved registers restored, and the same memory contents.", "quantifier": "all function bodies (any number of calls, loops, labels, forward and backward jumps), all frames, all argument lists and values, all initial memories, all executions of any length, all load addresses", "why_tests_cant": "A test fixes one program, one address and one input; the claim composes instruction selection, jump resizing, label addresses, entry and exit over all programs and over runs of any length.", "anchors": ["sljit_src/sljitLir.h: the documentation of the emit functions", "sljit_src/sljitNativeRISCV_common.c: sljit_emit_enter, sljit_emit_return, sljit_emit_op0, sljit_emit_op1, sljit_emit_op2, sljit_emit_op2u, sljit_emit_shift_into, sljit_emit_op_flags, sljit_emit_select, sljit_emit_label, sljit_emit_jump, sljit_emit_cmp, sljit_generate_code"]}
{"id": "C49", "title": "x86-64 code generation preserves the program", "statement": "sljit_generate_code on x86-64 writes only inside the buffer it requests from the allocator, and the generated code is the emitted program: instructions and constants are stored unchanged and in order, sljit_get_label_addr returns the address of the code after the label, every jump, conditional jump and call reaches its target (label or address) whichever of the short, near or far forms was selected, a rewritable jump reaches whatever target is stored in it, sljit_emit_op_addr loads the address of its target, aligned labels are aligned and the code before them continues at them.", "quantifier": "all programs (any number of labels, forward and backward jumps, move addresses, aligned labels, constants), all load addresses and executable offsets, System V and Windows register maps, all machine states", "why_tests_cant": "The size of each jump depends on the final position of every other item and on the load address; a wrong estimate shows only at particular distances and is a silent buffer overflow or a jump to a wrong address.", "anchors": ["sljit_src/sljitNativeX86_common.c: get_jump_code, detect_near_jump_type, generate_jump_or_mov_addr, process_extended_label, reduce_code_size, sljit_generate_code", "sljit_src/sljitNativeX86_64.c: detect_far_jump_type, generate_mov_addr_code"]}
{"id": "C50", "title": "x86-64 moves, bit counting, byte swapping, long multiplication, division and conditional results", "statement": "sljit_emit_op1 on x86-64 moves exactly the low 8, 16, 32 or 64 bits of its source to its destination with the requested extension and keeps the flags; SLJIT_CLZ, SLJIT_CTZ and the SLJIT_REV family return the number of zero bits (the width for zero) or the reversed bytes; sljit_emit_op0 computes the double width product, quotient and remainder of SLJIT_R0 and SLJIT_R1, and SLJIT_DIV preserves SLJIT_R1; sljit_emit_op_flags stores or combines 0 or 1 according to the condition, sljit_emit_select selects the right source and keeps the flags; every other register of the user and the rest of the memory are unchanged.", "quantifier": "all operations, widths, register, constant and memory operands (near and far addresses, overlapping registers), all conditions, all machine states, System V and Windows register maps, with and without LZCNT and TZCNT", "why_tests_cant": "The sequences depend on the operand kinds, on the overlap of destination and address registers, on byte registers which need a REX prefix, and on implicit rax and rdx operands; tests sample a few combinations of values and registers.", "anchors": ["sljit_src/sljitNativeX86_common.c: sljit_emit_op0, sljit_emit_op1, emit_mov_byte, emit_mov_half, emit_clz_ctz, emit_bswap, sljit_emit_op_flags", "sljit_src/sljitNativeX86_64.c: emit_mov_int, sljit_emit_select"]}
{"id": "C51", "title": "x86-64 function entry and return obey the calling convention", "statement": "sljit_emit_enter on x86-64 builds a frame which holds the locals and leaves the stack pointer aligned to 16 bytes, writes only the part of the frame above the locals, and moves each word argument from its register of the calling convention to its scratch or saved register without losing another one. Whatever a body then does to declared registers, unsaved registers and memory outside the saved part of its frame, sljit_emit_return_void, sljit_emit_return and sljit_emit_return_to reach the return address or the requested address with the stack pointer and every callee saved register (except the kept ones) as at entry, the returned value in rax, and the memory as the body left it.", "quantifier": "all legal combinations of scratch, saved and kept registers, word arguments and local sizes, System V and Windows (without floating point arguments and saved floating point registers there), all bodies, all machine states, all code addresses", "why_tests_cant": "Which registers are pushed, the size of the frame and the stack probing loop depend on all parameters together; a caller notices a lost callee saved register or a misaligned stack only by chance.", "anchors": ["sljit_src/sljitNativeX86_64.c: sljit_emit_enter, emit_stack_frame_release, sljit_emit_return_void, sljit_emit_return_to", "sljit_src/sljitLir.c: sljit_emit_return, emit_mov_before_return"]}
{"id": "C52", "title": "A generated function does what its sequence of API calls says on x86-64", "statement": "A function built by sljit_emit_enter, any sequence of integer API calls (op0, op1, op2, op2u, shift_into, op_flags, select, labels, jumps, conditional jumps, compares, returns) and sljit_generate_code on x86-64 (System V) behaves as the step by step reading of those calls: called by the C calling convention with arguments in rdi, rsi, rdx, rcx, it reaches every state the reading reaches (same register and memory values), and when the reading returns a value v, the code returns to the address on the stack with v in rax, the stack pointer and the callee saved registers restored, and the same memory contents.", "quantifier": "all function bodies (any number of calls, loops, labels, forward and backward jumps), all frames, all argument lists and values, all initial memories, all executions of any length, all load addresses, processors with and without LZCNT and TZCNT", "why_tests_cant": "A test fixes one program, one address and one input; the claim composes instruction encoding, instruction selection, jump resizing, label addresses, entry and exit over all programs and over runs of any length, down to the bytes.", "anchors": ["sljit_src/sljitLir.h: the documentation of the emit functions", "sljit_src/sljitNativeX86_common.c: sljit_emit_op0, sljit_emit_op1, sljit_emit_op2, sljit_emit_op2u, sljit_emit_shift_into, sljit_emit_op_flags, sljit_emit_label, sljit_emit_jump, sljit_generate_code", "sljit_src/sljitNativeX86_64.c: sljit_emit_enter, sljit_emit_return_void, sljit_emit_select", "sljit_src/sljitLir.c: sljit_emit_cmp, sljit_emit_return"]}
{"id": "C53", "title": "ARM64 code generation preserves the program", "statement": "sljit_generate_code on ARM64 writes only inside the buffer it requests from the allocator, and the generated code is the emitted program: instructions and constants are stored unchanged and in order, sljit_get_label_addr returns the address of the code after the label, every jump, conditional jump and call reaches its target (label or address) whichever of the six forms (conditional branch, branch, ADRP pair, 32, 48 or 64 bit address) was selected, a rewritable jump reaches whatever target sljit_set_jump_addr stores in it, sljit_emit_op_addr loads the address of its target, aligned labels are aligned and the code before them continues at them. A constant of sljit_emit_const loads the value of the last sljit_set_const.", "quantifier": "all programs (any number of labels, forward and backward jumps, move addresses, aligned labels, constants), all load addresses and executable offsets, all machine states; all constants and all sequences of rewrites", "why_tests_cant": "The size of each jump depends on the final position of every other item and on the load address; a wrong estimate shows only at particular distances (1 MB, 128 MB, 4 GB) and is a silent buffer overflow or a jump to a wrong address.", "anchors": ["sljit_src/sljitNativeARM_64.c: detect_jump_type, mov_addr_get_length, generate_jump_or_mov_addr, process_extended_label, reduce_code_size, sljit_generate_code, sljit_emit_const, sljit_set_jump_addr, sljit_set_const"]}
{"id": "C54", "title": "ARM64 function entry and return obey the calling convention", "statement": "sljit_emit_enter on ARM64 builds a frame which holds the locals at SLJIT_LOCALS_OFFSET, keeps the stack pointer a multiple of 16, stores the frame record (caller's x29 and x30) at the new stack pointer, writes nothing to the locals or outside the frame, and moves each word argument from its register of the calling convention to its scratch or saved register without losing another one. Whatever a body then does to declared registers, registers the calling convention does not preserve, x29, x30, its locals and all memory outside its frame, sljit_emit_return_void, sljit_emit_return and sljit_emit_return_to reach the return address or the requested address with the stack pointer, x29, x19-x28 (except kept registers) and d8-d15 as at entry, the returned value in x0, the other results and the memory as the body left them.", "quantifier": "all legal combinations of scratch, saved and kept registers, floating point scratch and saved registers, word arguments and local sizes (up to SLJIT_MAX_LOCAL_SIZE), all bodies, all machine states with an aligned stack pointer, all code addresses", "why_tests_cant": "Registers are saved in pairs which mix at the border of scratch and saved registers and of integer and floating point registers; offsets, the split of the allocation (512, 4096 bytes) and the release depend on all parameters together. A caller notices a lost callee saved register only by chance.", "anchors": ["sljit_src/sljitNativeARM_64.c: sljit_emit_enter, emit_stack_frame_release, sljit_emit_return_void, sljit_emit_return_to", "sljit_src/sljitLir.c: sljit_emit_return, emit_mov_before_return"]}
{"id": "C55", "title": "Whole functions compiled for ARM64 behave as their API calls say", "statement": "For every sequence of sljit calls (entry, moves, arithmetic, shifts, divisions, flags, selects, labels, jumps, compares and returns) that is accepted by the argument checks and does not run off its end, the machine code which sljit_generate_code produces on ARM64, wherever it is placed, called by the calling convention with any arguments and any memory, reaches at each point of the program the register and memory contents that the calls describe, and when the program returns, execution continues at the return address with the result in x0, stack pointer, x29, x19-x28 and d8-d15 restored and memory as the program left it.", "quantifier": "all programs of the covered calls, all register declarations (up to 23 registers), all arguments, memories, addresses of the code, all executions of any length", "why_tests_cant": "Tests run fixed programs on one load address; the claim combines operand encodings, flag state tracking between calls, branch shortening, label resolution and the frame, whose interactions are unbounded.", "anchors": ["sljit_src/sljitNativeARM_64.c: all emit functions for integers, sljit_generate_code", "sljit_src/sljitLir.c: sljit_emit_cmp, sljit_emit_return"]}
{"id": "C56", "title": "Functions compiled for ARM64 may call each other, recursively and to any depth", "statement": "When several functions are made with one compiler and call each other through sljit_emit_call and sljit_set_label, in any order and recursively, or call other code through sljit_emit_icall with an immediate, register or memory address, each call runs the callee with the values of SLJIT_R0, SLJIT_R1, ... as arguments; after it SLJIT_R0 has the result, the saved registers, SLJIT_SP and the local variables of the caller have their values, shared memory has what the callee left, and each function returns to its caller with the callee saved machine registers restored and without touching the stack frames above. This holds for every depth of nesting for which there is stack.", "quantifier": "all lists of functions of the covered calls, all arguments, memories, addresses of the code, all call depths, all external functions which follow the calling convention", "why_tests_cant": "Recursion depth, interleaving of frames and the aliasing of frames with pointers passed to callees are unbounded; a register that is wrongly treated as preserved shows only for particular combinations of caller and callee.", "anchors": ["sljit_src/sljitNativeARM_64.c: sljit_emit_call, sljit_emit_icall, sljit_emit_ijump, sljit_emit_enter, sljit_emit_label", "sljit_src/sljitLir.h:311-439 (argument types), 1832-1842, 1903-1915"]}
{"id": "C57", "title": "Functions compiled for RISC-V may call each other, recursively and to any depth", "statement": "When several functions are made with one compiler and call each other through sljit_emit_call and sljit_set_label, in any order and recursively, or call other code through sljit_emit_icall with an immediate, register or memory address, each call runs the callee with the values of SLJIT_R0, SLJIT_R1, ... as arguments; after it SLJIT_R0 has the result, the saved registers, SLJIT_SP and the local variables of the caller have their values, shared memory has what the callee left, and each function returns to its caller with the callee saved machine registers restored and without touching the stack frames above. This holds for every depth of nesting for which there is stack.", "quantifier": "all lists of functions of the covered calls, all arguments, memories, addresses of the code, all call depths, all external functions which follow the calling convention", "why_tests_cant": "Recursion depth, interleaving of frames and the aliasing of frames with pointers passed to callees are unbounded; a register that is wrongly treated as preserved shows only for particular combinations of caller and callee.", "anchors": ["sljit_src/sljitNativeRISCV_common.c: sljit_emit_call, sljit_emit_icall, sljit_emit_ijump, sljit_emit_enter (1157-1277), sljit_emit_label", "sljit_src/sljitNativeRISCV_64.c", "sljit_src/sljitLir.h:311-439 (argument types), 1832-1842, 1903-1915"]}
{"id": "C58", "title": "Functions compiled for x86-64 may call each other, recursively and to any depth", "statement": "When several functions are made with one compiler and call each other through sljit_emit_call and sljit_set_label, in any order and recursively, or call other code through sljit_emit_icall with an immediate, register or memory address, each call runs the callee with the values of SLJIT_R0, SLJIT_R1, ... as arguments; after it SLJIT_R0 has the result, the saved registers, SLJIT_SP and the local variables of the caller have their values, shared memory has what the callee left, and each function returns to its caller with the callee saved machine registers restored and without touching the return address or the stack frames above; the stack is aligned to 16 bytes at every call. This holds for every depth of nesting for which there is stack.", "quantifier": "all lists of functions of the covered calls, all arguments, memories, addresses of the code, all call depths, all external functions which follow the calling convention of System V", "why_tests_cant": "Recursion depth, interleaving of frames and the aliasing of frames with pointers passed to callees are unbounded; a register that is wrongly treated as preserved shows only for particular combinations of caller and callee.", "anchors": ["sljit_src/sljitNativeX86_64.c:788-815 (call_with_args), 897-915 (sljit_emit_call), 917-949 (sljit_emit_icall), 457-630 (sljit_emit_enter)", "sljit_src/sljitNativeX86_common.c:3438-3458 (sljit_emit_label), 3536-3594 (sljit_emit_jump, sljit_emit_ijump)", "sljit_src/sljitLir.h:311-439 (argument types), 1832-1842, 1903-1915"]}
{"id": "C59", "title": "Changing a rewritable jump on x86-64 gives the code of the program with the other target", "statement": "When sljit_set_jump_addr is used on the address of a jump, compare or call which was made with SLJIT_REWRITABLE_JUMP, any number of times and in any order, with the address of another label of the function or of another function, the code does afterwards what the program with these targets does, and nothing else changes: labels, functions, jumps and constants keep their addresses. The same holds for a constant and sljit_set_const.", "quantifier": "all lists of functions of the covered calls, all sequences of changes, all addresses of the code, all arguments and memories, all call depths", "why_tests_cant": "Whether the slot of one jump overlaps another instruction or depends on the layout, and whether the code around it was chosen for the old target, is a matter of all programs, sizes and distances.", "anchors": ["sljit_src/sljitNativeX86_common.c:5275-5315 (sljit_set_jump_addr, sljit_set_const), 678-781, 915-1026", "sljit_src/sljitNativeX86_64.c:361-396 (detect_far_jump_type)", "sljit_src/sljitLir.h:1820-1822, 2390-2442"]}
{"id": "C60", "title": "Changing a rewritable jump on ARM64 gives the code of the program with the other target", "statement": "When sljit_set_jump_addr is used on the address of a jump, compare or call which was made with SLJIT_REWRITABLE_JUMP, any number of times and in any order, with the address of another label of the function or of another function, the code does afterwards what the program with these targets does, and nothing else changes: labels, functions and the other jumps keep their addresses and targets.", "quantifier": "all lists of functions of the covered calls, all sequences of changes, all addresses of the code, all arguments and memories, all call depths", "why_tests_cant": "Whether the four words of one jump overlap another instruction, and whether the code around it was shortened for the old target, is a matter of all programs, sizes and distances.", "anchors": ["sljit_src/sljitNativeARM_64.c:3666-3685 (sljit_set_jump_addr), 300-620", "sljit_src/sljitLir.h:1820-1822, 2390-2442"]}
{"id": "C61", "title": "Changing a rewritable jump on RISC-V gives the code of the program with the other target", "statement": "When sljit_set_jump_addr is used on the address of a jump, compare or call which was made with SLJIT_REWRITABLE_JUMP, any number of times and in any order, with the address of another label of the function or of another function, its assertions hold and the code does afterwards what the program with these targets does; labels, functions and the other jumps keep their addresses and targets.", "quantifier": "all lists of functions of the covered calls, all configurations, all sequences of changes, all addresses of the code, all arguments and memories, all call depths", "why_tests_cant": "Jumps near a rewritable one may have been shortened for any distance, and the six instructions are rewritten field by field; that no other half word depends on the old target is a matter of all programs and addresses.", "anchors": ["sljit_src/sljitNativeRISCV_64.c:258-291 (sljit_set_jump_addr)", "sljit_src/sljitNativeRISCV_common.c:884-1050", "sljit_src/sljitLir.h:2390-2442"]}
{"id": "C62", "title": "Two-operand integer operations on LoongArch64 compute the documented results and flags", "statement": "The code emitted by sljit_emit_op2, sljit_emit_op2u and sljit_emit_op2r (SLJIT_MULADD) on LoongArch64 leaves in the destination the documented result of the operand values before the code, sets the zero and variable flags the operation asks for, and changes no other register of the application and no other memory byte.", "quantifier": "all operation codes, widths and flag requests, all register, constant and memory operands including all coincidences of registers, all constants, displacements and machine states", "why_tests_cant": "Operands may share registers with each other and with the temporaries of address computation, and the cache of address constants depends on the distances of all three operands; no finite set of register assignments and constants covers these.", "anchors": ["sljit_src/sljitNativeLOONGARCH_64.c:1132-1301 (push_mem_inst, getput_arg), 1366-1782 (emit_single_op), 1786-1908 (emit_op), 2008-2102", "sljit_src/sljitLir.h:1063-1110, 1320-1420"]}
{"id": "C63", "title": "Moves, bit counting and byte order operations on LoongArch64", "statement": "The code emitted by sljit_emit_op1 on LoongArch64 leaves in the destination the documented value: a move transfers the source cut to its width and zero or sign extended, SLJIT_CLZ/CTZ count the zero bits, SLJIT_REV* reverse the bytes. No other register of the application, no other memory byte and neither status flag changes.", "quantifier": "all operation codes and widths, all register, constant and memory operands including every coincidence of registers of the two operands, all constants, displacements and machine states", "why_tests_cant": "The address registers of a memory operand may be the destination or may coincide with each other, and displacements take different code in ranges of 64 bit numbers; tests visit a few of them.", "anchors": ["sljit_src/sljitNativeLOONGARCH_64.c:1951-2006 (sljit_emit_op1), 1366-1455 (emit_single_op, moves and bit operations), 1786-1908 (emit_op), 1132-1301 (memory operands)", "sljit_src/sljitLir.h:1190-1310"]}
{"id": "C64", "title": "Double-width shifts (shift_into) on LoongArch64", "statement": "The code emitted by sljit_emit_shift_into on LoongArch64 leaves in the destination register the documented half of the two source registers put side by side and shifted by the third operand modulo the width, and changes no other register of the application and no memory.", "quantifier": "both directions and widths, with and without SLJIT_SHIFT_INTO_NON_ZERO, all registers the argument checker accepts including all coincidences, all register, constant and memory operands as shift amount, all values and machine states", "why_tests_cant": "The shift amount 0 and amounts at the width are special in the emitted sequences and the shift amount may be addressed through the destination; tests visit a few register assignments and values.", "anchors": ["sljit_src/sljitNativeLOONGARCH_64.c:2101-2175 (sljit_emit_shift_into), 1303-1327 (emit_op_mem)", "sljit_src/sljitLir.h:1430-1470"]}
{"id": "C65", "title": "Conditions as values (op_flags) on LoongArch64", "statement": "On LoongArch64, after an operation that sets flags, sljit_emit_op_flags with any of the conditions those flags define stores 1 or 0 into its destination (SLJIT_MOV), or combines the destination with that bit (SLJIT_AND, SLJIT_OR, SLJIT_XOR); the condition has the documented meaning for the operands of the operation, SLJIT_SET_Z reports whether the new value is zero, SLJIT_MOV keeps the flags, and no other register of the application and no other memory changes.", "quantifier": "all operations and flag types, all condition types of integer operations and atomic stores, 32 and 64 bit forms, all register and memory destinations including addresses that need temporaries, all values and machine states", "why_tests_cant": "The condition is rebuilt from two hidden registers with inversions that depend on the condition and on the operation that set the flag; tests sample a few operand values and destinations.", "anchors": ["sljit_src/sljitNativeLOONGARCH_64.c:3016-3103 (sljit_emit_op_flags), 1329-1334 (emit_op_mem2), 1786-1908 (emit_op)", "sljit_src/sljitLir.h:1720-1756"]}
{"id": "C66", "title": "Compare and branch, conditional jumps and select on LoongArch64", "statement": "On LoongArch64, sljit_emit_cmp arrives at its jump if and only if the relation named by its type holds between its two operands, for 64 and 32 bit comparisons, and changes nothing the application can see (flags included); a conditional sljit_emit_jump arrives at its jump if and only if the condition the flags express holds; sljit_emit_select gives its destination the first source when the condition holds and the second otherwise, also when the destination is one of the sources or part of the address of the first, and changes nothing else.", "quantifier": "all relation and condition types, all register, constant and memory operands including addresses that need temporaries and the address cache, all branch distances, all positions of the code in memory, all values and machine states", "why_tests_cant": "Which temporary registers hold operands and addresses depends on the combination of the two operands and on the size of their offsets; only a few combinations are tested, and a wrong temporary shows up only when the values differ.", "anchors": ["sljit_src/sljitNativeLOONGARCH_64.c:2756-2806 (get_jump_instruction), 2858-2957 (sljit_emit_cmp), 3105-3155 (sljit_emit_select), 1246-1334 (getput_arg, emit_op_mem, emit_op_mem2)", "sljit_src/sljitLir.h:1720-1756"]}
{"id": "C67", "title": "Double width multiplication and division on LoongArch64", "statement": "On LoongArch64, SLJIT_LMUL_UW and SLJIT_LMUL_SW leave the exact 128 bit product in R1:R0; SLJIT_DIVMOD_UW, SLJIT_DIVMOD_SW, SLJIT_DIV_UW and SLJIT_DIV_SW leave quotient (and remainder) truncated toward zero for every divisor other than zero and every pair other than the overflowing one, in 64 and in 32 bit form, the latter for registers holding sign extended 32 bit values; no other register, no memory and no flag changes; results which the instruction set leaves open never reach a defined result.", "quantifier": "all values of R0 and R1, all machine states, every execution the architecture allows", "why_tests_cant": "There are 2^128 operand pairs, and a result the architecture leaves open can look right on the processor the test runs on.", "anchors": ["sljit_src/sljitNativeLOONGARCH_64.c:1910-1951 (sljit_emit_op0), 144-151 (opcodes)", "sljit_src/sljitLir.h:1178-1214"]}
{"id": "C68", "title": "Multiply and add on RISC-V", "statement": "On RISC-V (RV64), SLJIT_MULADD and SLJIT_MULADD32 add the product of the two source operands to the destination register, modulo the operation size and sign extended in 32 bit form, also when the destination is a source operand or part of the address of one; no other register of the application, no memory and no float register changes.", "quantifier": "all register, constant and memory source operands, all destination registers, all values and machine states, both instruction set variants with and without compressed instructions", "why_tests_cant": "The product passes through a temporary register which the address computation of the sources also uses; the tests cover a handful of operand combinations.", "anchors": ["sljit_src/sljitNativeRISCV_common.c:2751-2773 (sljit_emit_op2r)", "sljit_src/sljitLir.h:1414-1422"]}
{"id": "C69", "title": "Rewritable constants (LoongArch64)", "statement": "On LoongArch64, the code of sljit_emit_const gives its destination (a register or a memory cell in any addressing form) the initial value and changes nothing else the application can see, flags included; after any number of sljit_set_const calls on its address the very same code stores the last value, no assertion fails, and no instruction word outside this code is modified, wherever the executable mapping is.", "quantifier": "all kinds of constants, all destinations, all initial values, all sequences of new values, all addresses and executable offsets", "why_tests_cant": "2^128 pairs of old and new values; a field mask that keeps one bit too many is visible only for particular pairs.", "anchors": ["sljit_src/sljitNativeLOONGARCH_64.c:3872-3908 (emit_const, sljit_set_jump_addr), 3910-3956 (sljit_emit_const), 3997-4035 (sljit_set_const)", "sljit_src/sljitLir.h:2390-2403"]}
{"id": "C70", "title": "Jumps, calls and loaded addresses reach their target on LoongArch64", "statement": "On LoongArch64 a jump, conditional jump or call (sljit_emit_jump, sljit_emit_call, sljit_emit_cmp, sljit_emit_ijump with a constant), near or far, continues at its target if and only if its condition holds, and behind the jump otherwise; a call leaves the return address in the link register; nothing but temporary registers changes. After any number of sljit_set_jump_addr calls a rewritable jump leads to the last address. An address loaded by sljit_emit_op_addr is the address of the label.", "quantifier": "all jump types, all conditions and flag states, all positions and targets (aligned), all six jump forms, all register and memory contents, any sequence of sljit_set_jump_addr calls, any executable offset", "why_tests_cant": "The form depends on the distance between the code and its target: the two gigabyte and absolute forms are never selected in a test which allocates a few kilobytes of code near the functions it calls.", "anchors": ["sljit_src/sljitNativeLOONGARCH_64.c:414-583", "sljit_src/sljitNativeLOONGARCH_64.c:786-810", "sljit_src/sljitNativeLOONGARCH_64.c:2807-2841", "sljit_src/sljitNativeLOONGARCH_64.c:3882-3908"]}
{"id": "C71", "title": "Register pairs and unaligned accesses in memory (LoongArch64 and RV64)", "statement": "sljit_emit_mem with SLJIT_REG_PAIR(r1, r2) transfers r1 to or from the 8 bytes at the address of the operand and r2 to or from the next 8 bytes; the address is the one before the code also when its base or index register is loaded; no other register, byte of memory or status flag changes. With one register it is the move of its type.", "quantifier": "all register pairs, all memory operands (no base, every 64 bit displacement, every index and shift), all register and memory contents, RV64 with every combination of extensions", "why_tests_cant": "The offset of the second word is made by masking: displacements where the two words fall on different sides of the 12 bit window, and loads over the own base, are a few out of 2^64 x registers cases.", "anchors": ["sljit_src/sljitNativeLOONGARCH_64.c:3193-3246", "sljit_src/sljitNativeRISCV_common.c:3845-3897", "sljit_src/sljitLir.c:3382-3391", "sljit_src/sljitLir.h:1998-2020"]}
{"id": "C72", "title": "Atomic read-modify-write among other threads (LoongArch64)", "statement": "sljit_emit_atomic_load puts the value which the cell has at some moment into dst_reg and changes nothing else. A following sljit_emit_atomic_store of the same type and address either replaces, in one step, a cell that holds the loaded value, or leaves the memory unchanged, and the ATOMIC_STORED flag says which. Registers are kept, temp_reg when the store is successful. Load and store forms are available together; with compare and swap the load is optional and the cell is replaced exactly when it holds the value of temp_reg.", "quantifier": "all types SLJIT_MOV..SLJIT_MOV_P, both instruction sets (amcas, ll/sc), all registers and memory contents, all changes by other threads before and after every instruction", "why_tests_cant": "Interleavings with other threads cannot be enumerated, and a comparison of sign extended with zero extended values is wrong only for values with the top bit set.", "anchors": ["sljit_src/sljitNativeLOONGARCH_64.c:3723-3870", "sljit_src/sljitLir.h:2314-2376", "sljit_src/sljitLir.c:1725-1805"]}
{"id": "C73", "title": "Atomic read-modify-write among other threads (RV64)", "statement": "sljit_emit_atomic_load puts the value which the cell has at some moment into dst_reg and changes nothing else. A following sljit_emit_atomic_store of the same type and address either replaces, in one step, a cell that holds the loaded value, or leaves the memory unchanged. The conditions SLJIT_ATOMIC_STORED and SLJIT_ATOMIC_NOT_STORED say which, in jumps and in sljit_emit_op_flags. All registers are kept. Load and store forms are available together.", "quantifier": "all available types, all registers and memory contents, all changes by other threads before and after every instruction, all failure codes of sc", "why_tests_cant": "Interleavings with other threads cannot be enumerated, and the failure code of sc depends on the processor: current ones only give 1.", "anchors": ["sljit_src/sljitNativeRISCV_common.c:3901-3971", "sljit_src/sljitNativeRISCV_common.c:3655-3720", "sljit_src/sljitNativeRISCV_common.c:3345-3400", "sljit_src/sljitLir.h:2314-2376"]}
{"id": "C74", "title": "Storing and adding label addresses (LoongArch64)", "statement": "sljit_emit_op_addr with SLJIT_MOV_ADDR or SLJIT_MOV_ABS_ADDR stores the address of the label into a register or memory destination; SLJIT_ADD_ABS_ADDR adds it to the destination. No other register, no flag and no other memory is changed, whatever distance and form the code generator selects.", "quantifier": "all operations, all destinations (registers, base plus displacement, base plus shifted index, absolute), all code and label addresses, all machine states", "why_tests_cant": "The form of the address depends on where the allocator puts the code; distances around 2 gigabytes do not occur in tests.", "anchors": ["sljit_src/sljitNativeLOONGARCH_64.c:3958-3995", "sljit_src/sljitNativeLOONGARCH_64.c:493-534", "sljit_src/sljitLir.h:2404-2416"]}
{"id": "C75", "title": "Storing and adding label addresses, through code generation (RV64)", "statement": "In a generated program, sljit_emit_op_addr with SLJIT_MOV_ADDR or SLJIT_MOV_ABS_ADDR stores the address of the code emitted after the label (or the address set by sljit_set_target) into a register or memory destination; SLJIT_ADD_ABS_ADDR adds it to the destination. Execution continues with the code emitted next; no other register, no flag and no other memory is changed.", "quantifier": "all programs of code, labels, constants, jumps and addresses around it, all destinations, all buffers and executable offsets, with and without compressed instructions, all machine states", "why_tests_cant": "The form of the address depends on where the allocator puts the code and on the sizes of all other pieces of the program.", "anchors": ["sljit_src/sljitNativeRISCV_common.c:4540-4580", "sljit_src/sljitNativeRISCV_common.c:560-760", "sljit_src/sljitLir.h:2404-2416"]}
{"id": "C76", "title": "Atomic read-modify-write among other threads (ARM64)", "statement": "sljit_emit_atomic_load puts the value which the cell has at some moment into dst_reg and changes nothing else. A following sljit_emit_atomic_store of the same type and address either replaces, in one step, a cell that holds the loaded value, or leaves the memory unchanged. The conditions SLJIT_ATOMIC_STORED and SLJIT_ATOMIC_NOT_STORED say which, in sljit_emit_op_flags and sljit_emit_select. temp_reg keeps its value when the store succeeds, all other registers always. Without SLJIT_SET_ATOMIC_STORED the flags are kept. Load and store forms are available together, with and without compare and swap instructions.", "quantifier": "all types and options, all registers and memory contents, all changes by other threads before and after every instruction, compilers with and without __ARM_FEATURE_ATOMICS", "why_tests_cant": "Interleavings with other threads cannot be enumerated, and a test machine has only one setting of __ARM_FEATURE_ATOMICS.", "anchors": ["sljit_src/sljitNativeARM_64.c:3385-3536", "sljit_src/sljitNativeARM_64.c:2290-2310", "sljit_src/sljitLir.c:1725-1825", "sljit_src/sljitLir.h:2314-2376"]}
{"id": "C77", "title": "Atomic read-modify-write among other threads (x86-64)", "statement": "sljit_emit_atomic_load puts the value which the cell has at some moment into dst_reg and changes no other register, no flag and no memory. sljit_emit_atomic_store replaces the cell in one step exactly when the cell has the value in temp_reg, and leaves the memory unchanged otherwise. SLJIT_ATOMIC_STORED and SLJIT_ATOMIC_NOT_STORED say which, in sljit_emit_op_flags and sljit_emit_select. temp_reg keeps its value when the cell is replaced, all other registers always, even though cmpxchg works with RAX (SLJIT_R0) only. Load and store are available for the same types.", "quantifier": "all types and options, all combinations of registers (R0 may be the source, the address, temp_reg or none of them, and they may coincide), both ABIs, all register and memory contents, all changes by other threads before and after every instruction", "why_tests_cant": "Interleavings with other threads cannot be enumerated, nor can the combinations of registers and values.", "anchors": ["sljit_src/sljitNativeX86_common.c:4937-4952", "sljit_src/sljitNativeX86_common.c:4954-5089", "sljit_src/sljitNativeX86_common.c:601-615", "sljit_src/sljitLir.c:1725-1825", "sljit_src/sljitLir.h:2314-2376"]}
{"id": "C78", "title": "Storing and adding label addresses, through code generation (ARM64)", "statement": "Wherever sljit_emit_op_addr is in a program, the generated code writes the address of the label (or the constant target) into the destination for SLJIT_MOV_ADDR and SLJIT_MOV_ABS_ADDR, and adds it to the destination for SLJIT_ADD_ABS_ADDR, then continues with the code emitted after it. The address is the one where the code after the label is. Flags, vector registers, other registers of the application and other memory keep their values.", "quantifier": "all programs around the operation, all operations, register and memory destinations (any base, index and displacement), labels and constant targets, places in memory and executable offsets, machine states", "why_tests_cant": "The length of the address sequence depends on the distance and on the address (adr, adrp+add, two to four moves), and the displacements select among many load and store sequences sharing the two temporary registers.", "anchors": ["sljit_src/sljitNativeARM_64.c:3627-3665", "sljit_src/sljitNativeARM_64.c:1166-1240", "sljit_src/sljitLir.h:2404-2416"]}
{"id": "C79", "title": "Storing and adding label addresses, through code generation (x86-64)", "statement": "Wherever sljit_emit_op_addr is in a program, the generated code writes the address of the label (or the constant target) into the destination for SLJIT_MOV_ADDR and SLJIT_MOV_ABS_ADDR, and adds it to the destination for SLJIT_ADD_ABS_ADDR, then continues with the code emitted after it. The address is the one where the code after the label is. Flags, other registers of the application and other memory keep their values.", "quantifier": "all programs around the operation, all operations, register and memory destinations (any base, index and displacement), labels and constant targets, places in memory and executable offsets, machine states, both calling conventions", "why_tests_cant": "The length of the address sequence depends on the distance and on the address (five, seven or ten bytes), the displacements select among addressing forms sharing the temporary registers, and a changed flag is only seen by a later instruction which uses it.", "anchors": ["sljit_src/sljitNativeX86_common.c:5212-5273", "sljit_src/sljitLir.h:2404-2416"]}
{"id": "C80", "title": "Register pairs in memory (ARM64)", "statement": "sljit_emit_mem with SLJIT_REG_PAIR(r1, r2) transfers r1 to or from the word at the address of the memory operand, and r2 to or from the word after it, where the address is the one before the code even if the base or the index register is one of the pair. Flags, vector registers, the stack pointer, other registers of the application and other memory keep their values.", "quantifier": "all register pairs, memory operands (any base, index, shift and displacement), loads and stores, machine states with an aligned stack pointer", "why_tests_cant": "The displacement selects among eight code sequences with different limits (0x1f8, 0x7ff0, 0xfff, 0xffffff, alignment, sign), and each of them has to be combined with every overlap between the pair and the operand.", "anchors": ["sljit_src/sljitNativeARM_64.c:2683-2752", "sljit_src/sljitLir.h:2002-2028"]}
{"id": "C81", "title": "Register pairs in memory (x86-64)", "statement": "sljit_emit_mem with SLJIT_REG_PAIR(r1, r2) transfers r1 to or from the word at the address of the memory operand, and r2 to or from the word after it, where the address is the one before the code even if the base, the index register or both are in the pair. Flags, the stack pointer, other registers of the application and other memory keep their values.", "quantifier": "all register pairs, memory operands (any base, index, shift and displacement), loads and stores, both calling conventions, machine states", "why_tests_cant": "The order of the two accesses and the use of the temporary depend on the overlap between the pair and the operand, and one access is encoded by hand with bits from three registers; the displacements near the 32 bit limits select other sequences.", "anchors": ["sljit_src/sljitNativeX86_64.c:1067-1145", "sljit_src/sljitLir.h:2002-2028"]}
{"id": "C82", "title": "Loads and stores with base update (ARM64)", "statement": "sljit_emit_mem_update emits one instruction which loads or stores a value of the given type (extended as the type says) at the base plus the offset (SLJIT_MEM_PRE) or at the base (SLJIT_MEM_POST), and sets the base register to its old value plus the offset. Other registers, flags and other memory keep their values. It returns SLJIT_ERR_UNSUPPORTED exactly for the forms with an index register or an offset outside of -256..255, SLJIT_MEM_SUPP gives the same answer, and in both cases no instruction is emitted.", "quantifier": "all move types, loads and stores, pre and post forms, registers, offsets, machine states", "why_tests_cant": "The word combines five fields (size, opcode, sign, index form, signed 9 bit offset) with two registers; there are more than five million forms, and each of them has to be right in every state.", "anchors": ["sljit_src/sljitNativeARM_64.c:2753-2803", "sljit_src/sljitLir.h:1983-2001", "sljit_src/sljitLir.h:2033-2052"]}
{"id": "C83", "title": "Loads and stores with base update (ARM32)", "statement": "sljit_emit_mem_update emits one instruction which loads or stores a value of the given type (extended as the type says) at the base plus the offset (SLJIT_MEM_PRE) or at the base (SLJIT_MEM_POST), and sets the base register to its old value plus the offset, where the offset is a constant or an index register times a power of two. Other registers, flags and other memory keep their values. It returns SLJIT_ERR_UNSUPPORTED exactly for the forms the instruction set does not have (offsets outside of -4095..4095, or outside of -255..255 and shifted indexes for halfwords and signed byte loads), SLJIT_MEM_SUPP gives the same answer, and in both cases no instruction is emitted.", "quantifier": "all move types, loads and stores, pre and post forms, registers, offsets, index shifts, machine states", "why_tests_cant": "Two instruction families with different offset fields, a sign bit and two index bits are assembled by hand; a wrong combination is a different valid instruction, and every offset and state has to be right.", "anchors": ["sljit_src/sljitNativeARM_32.c:3871-3970", "sljit_src/sljitLir.h:1983-2001", "sljit_src/sljitLir.h:2033-2052"]}
{"id": "C84", "title": "Floating point loads and stores with base update (ARM64)", "statement": "sljit_emit_fmem_update emits one instruction which loads or stores a 32 or 64 bit floating point register at the base plus the offset (SLJIT_MEM_PRE) or at the base (SLJIT_MEM_POST), and sets the base register to its old value plus the offset. Other general and floating point registers, flags and other memory keep their values. It returns SLJIT_ERR_UNSUPPORTED exactly for the forms with an index register or an offset outside of -256..255, SLJIT_MEM_SUPP gives the same answer, and in both cases no instruction is emitted.", "quantifier": "32 and 64 bit values, loads and stores, pre and post forms, registers, offsets, machine states", "why_tests_cant": "A wrong size, index or opcode bit gives another valid instruction (an 8 or 16 bit or vector transfer), which can agree with the right one on sample data; every register, offset and state has to be right.", "anchors": ["sljit_src/sljitNativeARM_64.c:2808-2835", "sljit_src/sljitLir.h:1987-2001", "sljit_src/sljitLir.h:2070-2082"]}
{"id": "C85", "title": "Loads and stores with base update (Thumb-2)", "statement": "sljit_emit_mem_update emits one 32 bit Thumb-2 instruction (two halfwords) which loads or stores a value of the given type (extended as the type says) at the base plus the offset (SLJIT_MEM_PRE) or at the base (SLJIT_MEM_POST), and sets the base register to its old value plus the offset. Other registers, flags and other memory keep their values. It returns SLJIT_ERR_UNSUPPORTED exactly for the forms with an index register or an offset outside of -255..255, SLJIT_MEM_SUPP gives the same answer, and in both cases no instruction is emitted.", "quantifier": "all move types, loads and stores, pre and post forms, registers, offsets, machine states", "why_tests_cant": "The opcode comes from a table and the index bits and the sign are added by hand; a wrong bit gives another valid instruction (unprivileged or without update), and every offset and state has to be right.", "anchors": ["sljit_src/sljitNativeARM_T2_32.c:3514-3570", "sljit_src/sljitNativeARM_T2_32.c:1284-1301", "sljit_src/sljitLir.h:2033-2052"]}
