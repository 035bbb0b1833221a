{
 "claims": [
  {
   "property": "C01",
   "status": "proved",
   "theorems": [
    "Verif.Props.c01_no_overlap",
    "Verif.Props.c01_malloc_total",
    "Verif.Props.alloc_example"
   ],
   "note": "All histories of malloc/free/free_unused with any system answers and client writes; requests up to 2^64-128 bytes."
  },
  {
   "property": "C02",
   "status": "proved",
   "theorems": [
    "Verif.Props.c02_malloc_frame",
    "Verif.Props.c02_free_frame",
    "Verif.Props.c02_freeUnused_frame"
   ],
   "note": ""
  },
  {
   "property": "C03",
   "status": "proved",
   "theorems": [
    "Verif.Props.c03_coalesced",
    "Verif.Props.c03_unused_chunk",
    "Verif.Props.c03_reuse"
   ],
   "note": ""
  },
  {
   "property": "C04",
   "status": "proved",
   "theorems": [
    "Verif.Props.c04_accounting"
   ],
   "note": ""
  },
  {
   "property": "C05",
   "status": "proved",
   "theorems": [
    "Verif.Props.c05_free_unused",
    "Verif.Props.c02_freeUnused_frame"
   ],
   "note": ""
  },
  {
   "property": "C06",
   "status": "partial",
   "theorems": [
    "Verif.Props.c06_malloc_size_partial",
    "Verif.Props.c06_false",
    "Verif.Props.c06_wx_false"
   ],
   "note": "False in the code: sizes near 2^64 wrap around (c06_false, c06_wx_false). Proved for sizes up to 2^64-128."
  },
  {
   "property": "C07",
   "status": "proved",
   "theorems": [
    "Verif.Props.c07_stack_bounds",
    "Verif.Props.c07_resize",
    "Verif.Props.c07_stack_bounds_simple",
    "Verif.Props.c07_stack_windows"
   ],
   "note": "POSIX, simple and Windows versions, page size any power of two up to 2^63"
  },
  {
   "property": "C08",
   "status": "proved",
   "theorems": [
    "Verif.Props.c08_code",
    "Verif.Props.c08_stable"
   ],
   "note": "any calls, any malloc failures; fragment lists at block level"
  },
  {
   "property": "C09",
   "status": "proved",
   "theorems": [
    "Verif.Props.c09_sticky",
    "Verif.Props.c09_reported"
   ],
   "note": "first error is returned by every later call, nothing is emitted, generation returns NULL"
  },
  {
   "property": "C10",
   "status": "partial",
   "theorems": [
    "Verif.Props.c10_freed",
    "Verif.Props.c10_not_before",
    "Verif.Props.c10_deserialize_partial"
   ],
   "note": "Full for create/emit/alloc/generate/free. For deserialize: under the size conditions of C12, since the unchecked sizes corrupt the heap otherwise (c12_false)."
  },
  {
   "property": "C11",
   "status": "proved",
   "theorems": [
    "Verif.Props.c11_roundtrip",
    "Verif.Props.c11_continue",
    "Verif.Props.reach_ok"
   ],
   "note": "Little endian RV64 layout; counts below 2^63 bytes; the reader may lack debug data only if it does not need it."
  },
  {
   "property": "C12",
   "status": "partial",
   "theorems": [
    "Verif.Props.c12_partial",
    "Verif.Props.c12_false",
    "Verif.Props.c12_count_false"
   ],
   "note": "False as written: fragment sizes and counts are not checked. Partial: in bounds when fragments fit (<=4080) and counts do not wrap."
  },
  {
   "property": "C13",
   "status": "partial",
   "theorems": [
    "Verif.Props.C39.c13_partial",
    "Verif.Props.C39.c13_false",
    "Verif.Props.C39.c13_vector_false"
   ],
   "note": "Word operands, flags and (separate vector register architectures) float registers are accepted as before; false for float registers elsewhere and for vector registers, whose counts are not serialized."
  },
  {
   "property": "C14",
   "status": "partial",
   "theorems": [
    "Verif.Props.C14.c14_partial",
    "Verif.Props.C14.c14_carry",
    "Verif.Props.C14.c14_clz_false",
    "Verif.Props.C14.c14_call_false",
    "Verif.Props.C14.c14_shift_into_false",
    "Verif.Props.C14.c14_fop_false",
    "Verif.Props.C14.c14_fcmp_false",
    "Verif.Props.C14.c14_cmpF_false",
    "Verif.Props.C14.c14_op2cmpz_false"
   ],
   "note": "Accepted uses of flags read a flag set by the last flag-setting call, for sequences without the listed calls; the full statement is false, one witness for each of those calls."
  },
  {
   "property": "C15",
   "status": "proved",
   "theorems": [
    "Verif.Props.c15_load_immediate",
    "Verif.Props.c15_load_immediate32"
   ],
   "note": "RV64 load_immediate, all configurations; emitted words are decoded by an independent ISA model"
  },
  {
   "property": "C16",
   "status": "proved",
   "theorems": [
    "Verif.Props.c16_emit_const",
    "Verif.Props.c16_set_const"
   ],
   "note": "RV64: all constant kinds, any sequence of rewrites, any executable offset; storing the value to a memory destination is emit_op_mem (C25)."
  },
  {
   "property": "C17",
   "status": "proved",
   "theorems": [
    "Verif.Props.c17_set_jump_addr"
   ],
   "note": "RV64: the full-length sequence used for rewritable jumps and calls, any sequence of rewrites."
  },
  {
   "property": "C18",
   "status": "partial",
   "theorems": [
    "Verif.Props.c18_partial",
    "Verif.Props.generate_spec",
    "Verif.Props.c18_window_false",
    "Verif.Props.c18_cond16_false",
    "Verif.Props.C18Demo.ok",
    "Verif.Props.C18Demo.tail",
    "Verif.Props.C18Demo.room",
    "Verif.Props.C18Demo.noEnd"
   ],
   "note": "RV64. All programs (any number of labels, aligned labels, constants, near/far/compressed/rewritable jumps, calls, move-address), any code size. Excluded because the code is wrong there: addresses in a 2KB window below 2^51, compressed conditional jumps to constant addresses, programs ending in a conditional jump, programs ending in a label with an executable offset."
  },
  {
   "property": "C19",
   "status": "partial",
   "theorems": [
    "Verif.Props.c19_partial",
    "Verif.Props.generate_spec",
    "Verif.Props.c19_false"
   ],
   "note": "RV64. False when the program ends with a conditional near jump (c19_false); proved for all other programs."
  },
  {
   "property": "C20",
   "status": "partial",
   "theorems": [
    "Verif.Props.C20.c20_result_partial",
    "Verif.Props.C20.c20_overflow_false"
   ],
   "note": "All codes, operand forms, aliasing, configurations; excluded: SET_OVERFLOW on two constants one of which is 0, for which the emitted code is a wild jump (c20_overflow_false)."
  },
  {
   "property": "C21",
   "status": "partial",
   "theorems": [
    "Verif.Props.C20.c21_flags_partial",
    "Verif.Props.C20.c21_carry_false",
    "Verif.Props.C20.c21_carry_false'",
    "Verif.Props.C20.c20_overflow_false"
   ],
   "note": "Zero and variable flag registers for all flag types; excluded: the constant operand combinations for which carry or overflow is mistranslated (negations proved)."
  },
  {
   "property": "C22",
   "status": "partial",
   "theorems": [
    "Verif.Props.C22.c22_chain_partial",
    "Verif.Props.C22.c22_registers",
    "Verif.Props.C22.c22_memory",
    "Verif.Props.C22.c22_false"
   ],
   "note": "Exact for register and memory operands of any length; false with a constant 0 operand in place (c22_false)."
  },
  {
   "property": "C23",
   "status": "proved",
   "theorems": [
    "Verif.Props.C20.c23_shift"
   ],
   "note": "All shifts and rotates, all amounts, register, constant and memory operands."
  },
  {
   "property": "C24",
   "status": "partial",
   "theorems": [
    "Verif.Props.C24.c24_partial",
    "Verif.Props.C24.c24_rev32_false"
   ],
   "note": "RV64 CLZ, CTZ and all REV forms, with and without Zbb, any register or memory operands. Missing: REV32 without Zbb, for which the claim fails (c24_rev32_false: result not sign extended). RV32 not modelled."
  },
  {
   "property": "C25",
   "status": "partial",
   "theorems": [
    "Verif.Props.C24.c25_move_partial",
    "Verif.Props.C20.c20_result_partial",
    "Verif.Props.C24.c25_store_false",
    "Verif.Props.C24.c25_store_addr_false"
   ],
   "note": "RV64 moves of every width between every addressing form. Missing: sub-word store from a register with Zbb (claim fails: the source register is overwritten), SLJIT_SP as destination of a move, emit_op_mem users."
  },
  {
   "property": "C26",
   "status": "partial",
   "theorems": [
    "Verif.Props.C20.c20_result_partial",
    "Verif.Props.C24.c25_move_partial",
    "Verif.Props.C24.c24_partial",
    "Verif.Props.C24.c25_store_addr_false",
    "Verif.Props.C27.c27_partial",
    "Verif.Props.C29.c29_select_partial",
    "Verif.Props.C29.c29_select_false"
   ],
   "note": "RV64. All these theorems give the result in terms of the state before the operation, with arbitrary aliasing of destination, sources, bases and indices. False for stores with Zbb (c25_store_addr_false) and for select with dst = src2 = base (c29_select_false)."
  },
  {
   "property": "C27",
   "status": "partial",
   "theorems": [
    "Verif.Props.C27.c27_partial",
    "Verif.Props.C27.c27_false"
   ],
   "note": "RV64, all registers, operand forms, widths and values; the documented behaviour fails for a constant shift amount that is zero modulo the width when dst differs from src1 (c27_false), which c27_partial excludes."
  },
  {
   "property": "C28",
   "status": "partial",
   "theorems": [
    "Verif.Props.C28.c28_partial",
    "Verif.Props.C28.c28_word",
    "Verif.Props.C28.c28_placed",
    "Verif.Props.C28.c28_generated",
    "Verif.Props.C28.c28_false",
    "Verif.Props.C28.c28_signed_false"
   ],
   "note": "RV64 backend. 64 bit comparisons: proved for all operands (c28_word). 32 bit comparisons with memory operands are wrong in the code when the cell has its upper bit set (c28_false, c28_signed_false); c28_partial covers the operands which the branch sees extended in the same way. c28_placed/c28_generated connect it with the jump of C18."
  },
  {
   "property": "C29",
   "status": "partial",
   "theorems": [
    "Verif.Props.C29.c29_set_partial",
    "Verif.Props.C29.c29_mov",
    "Verif.Props.C29.c29_logic",
    "Verif.Props.C29.c29_compare_partial",
    "Verif.Props.C29.c29_jump",
    "Verif.Props.C29.c29_select_partial",
    "Verif.Props.C29.c29_select32_false",
    "Verif.Props.C29.c29_select_false"
   ],
   "note": "RV64. op_flags and conditional jumps agree with the condition of the flag setting operation; select is proved outside two defect cases, which are refuted by witnesses. Float conditions only through the flag register, other backends not modelled."
  },
  {
   "property": "C30",
   "status": "proved",
   "theorems": [
    "Verif.Props.C30.c30_return",
    "Verif.Props.C30.c30_return_value",
    "Verif.Props.C30.c30_return_to",
    "Verif.Props.C30.c30_tail_call",
    "Verif.Props.C30.c30_ijump",
    "Verif.Props.C30.c30_checked",
    "Verif.Props.C30.c30_kept_false"
   ],
   "note": "RV64, machine level: enter, any body within its declared registers and locals, then return_void / return (integer) / return_to / tail call. Frames whose kept count exceeds the saved count pass the argument check but are outside (c30_kept_false). Float results of sljit_emit_return are not modelled."
  },
  {
   "property": "C31",
   "status": "proved",
   "theorems": [
    "Verif.Props.C30.c31",
    "Verif.Props.C30.c30_return"
   ],
   "note": "RV64. SLJIT_LOCALS_OFFSET is 0, so ADJUST_LOCAL_OFFSET is the identity."
  },
  {
   "property": "C32",
   "status": "proved",
   "theorems": [
    "Verif.Props.C30.c32"
   ],
   "note": "RV64 with the LP64D calling convention; at most four arguments as checked by function_check_arguments."
  },
  {
   "property": "C33",
   "status": "partial",
   "theorems": [
    "Verif.Props.C33.c33_mips64",
    "Verif.Props.C33.c33_mips64_icall",
    "Verif.Props.C33.c33_ppc64",
    "Verif.Props.C33.c33_ppc64_icall",
    "Verif.Props.C33.c33_sysv",
    "Verif.Props.C33.c33_win64",
    "Verif.Props.C33.c33_arm32",
    "Verif.Props.C33.c33_thumb_partial",
    "Verif.Props.C33.c33_thumb_false",
    "Verif.Props.C33.c33_regarg",
    "Verif.Props.C33.c33_regarg_tail_false"
   ],
   "note": "The words/bytes emitted by call_with_args are decoded and executed for every descriptor and every target register. False in the code for Thumb-2 with three F32 arguments (c33_thumb_false) and for SLJIT_CALL_REG_ARG tail calls on PPC64 and ARM (c33_regarg_tail_false). Not modelled: conventions which pass arguments on the stack (x86-32, MIPS32, ARM soft float), frame release of tail calls on these machines."
  },
  {
   "property": "C34",
   "status": "proved",
   "theorems": [
    "Verif.Props.C34.c34_op0"
   ],
   "note": "All integer operations of sljit_emit_op0 on RV64: the double width product, quotient and remainder of natural numbers and integers, for all register contents; division by zero and the signed overflow case are excluded as documented. SLJIT_BREAKPOINT is not modelled."
  },
  {
   "property": "C35",
   "status": "proved",
   "theorems": [
    "Verif.Props.C35.c35_reg",
    "Verif.Props.C35.c35_imm",
    "Verif.Props.C35.c35_bin",
    "Verif.Props.C35.c35_shift",
    "Verif.Props.C35.c35_size",
    "Verif.Props.C35.c35_total",
    "Verif.Props.C35.c35_registers"
   ],
   "note": "emit_x86_instruction for every flag combination the assertions allow; decoded by a decoder written from the Intel manual. VEX/EVEX prefixes (emit_vex_instruction) are not modelled."
  },
  {
   "property": "C36",
   "status": "proved",
   "theorems": [
    "Verif.Props.C36.c36_arm64",
    "Verif.Props.C36.c36_arm32",
    "Verif.Props.C36.c36_thumb",
    "Verif.Props.C36.c36_loong",
    "Verif.Props.C36.c36_s390x",
    "Verif.Props.C36.c36_ppc64",
    "Verif.Props.C36.c36_mips64",
    "Verif.Props.C36.c36_x86_64"
   ],
   "note": "All constants, all destinations on the eight back ends."
  },
  {
   "property": "C37",
   "status": "proved",
   "theorems": [
    "Verif.Props.C37.c37_arm64",
    "Verif.Props.C37.c37_arm64_total",
    "Verif.Props.C37.c37_arm32",
    "Verif.Props.C37.c37_arm32_pair",
    "Verif.Props.C37.c37_arm32_complete",
    "Verif.Props.C37.c37_thumb",
    "Verif.Props.C37.c37_thumb_complete"
   ],
   "note": "Sound for all constants; completeness proved for ARM32 and Thumb-2 (ARM64 misses a few encodable constants, which is harmless)."
  },
  {
   "property": "C38",
   "status": "proved",
   "theorems": [
    "Verif.Props.C39.c38"
   ],
   "note": "Generic sljit_emit_cmp; sljit_emit_fcmp does not swap."
  },
  {
   "property": "C39",
   "status": "proved",
   "theorems": [
    "Verif.Props.C39.c39_src",
    "Verif.Props.C39.c39_dst",
    "Verif.Props.C39.c39_enter",
    "Verif.Props.C39.c39_freg",
    "Verif.Props.C39.c39_vreg"
   ],
   "note": "If and only if, for 64-bit architectures (no virtual registers, no register pairs)."
  },
  {
   "property": "C40",
   "status": "partial",
   "theorems": [
    "Verif.Props.c40_partial",
    "Verif.Props.c40_false"
   ],
   "note": "RV64. False for a label at the end when the executable mapping differs (c40_false); proved otherwise."
  },
  {
   "property": "C41",
   "status": "partial",
   "theorems": [
    "Verif.Props.c41_partial",
    "Verif.Props.c41_false"
   ],
   "note": "RV64. False: exactly twice the number of bytes is reported."
  },
  {
   "property": "C42",
   "status": "proved",
   "theorems": [
    "Verif.Props.c42_wx_pages"
   ],
   "note": "Patched range must not reach into the last page of the address space"
  },
  {
   "property": "C43",
   "status": "proved",
   "theorems": [
    "Verif.Props.c43_wx_blocks"
   ],
   "note": "Requests which do not wrap around when the header is added; otherwise C06 (c06_wx_false)"
  },
  {
   "property": "C44",
   "status": "partial",
   "theorems": [
    "Verif.Props.C39.c44_partial",
    "Verif.Props.C39.c44_false"
   ],
   "note": "False: SLJIT_ENTER_KEEP count is compared with the packed saveds argument; holds when no float or vector register is saved."
  },
  {
   "property": "C45",
   "status": "partial",
   "theorems": [
    "Verif.Props.C45.c45_op2_partial",
    "Verif.Props.C45.c45_op2u_partial",
    "Verif.Props.C45.c45_muladd",
    "Verif.Props.C45.c45_shift_into_partial",
    "Verif.Props.C45.c45_addc_imm_false",
    "Verif.Props.C45.c45_addc_double_false",
    "Verif.Props.C45.c45_subc_double_false",
    "Verif.Props.C45.c45_xor_false",
    "Verif.Props.C45.c45_shift_into_false"
   ],
   "note": "All operations, flags and operand kinds; excluded are only constants for which the code is wrong (proved by the _false theorems) or which share the same code path. MULADD is complete."
  },
  {
   "property": "C46",
   "status": "partial",
   "theorems": [
    "Verif.Props.C46.c46_op2_partial",
    "Verif.Props.C46.c46_op2u_partial",
    "Verif.Props.C46.c46_muladd",
    "Verif.Props.C46.c46_shift_into_partial",
    "Verif.Props.C46.c46_add_false",
    "Verif.Props.C46.c46_sub_false",
    "Verif.Props.C46.c46_mul_false",
    "Verif.Props.C46.c46_shift_false",
    "Verif.Props.C46.c46_op2u_shift_false",
    "Verif.Props.C46.c46_into_zero_false",
    "Verif.Props.C46.c46_into_mem_false",
    "Verif.Props.C46.c46_into_rcx_false"
   ],
   "note": "All operations, flags and operand kinds of sljit_emit_op2/op2u/op2r and sljit_emit_shift_into on x86-64, byte by byte, except the operand combinations where the code is wrong: the address of the second operand uses the destination (binary operations, multiplication), a shift count in memory with a far address, and three cases of shift_into; these are refuted by concrete states. sljit_emit_op2r is complete."
  },
  {
   "property": "C47",
   "status": "partial",
   "theorems": [
    "Verif.Props.C47.c47_op2",
    "Verif.Props.C47.c47_op2u",
    "Verif.Props.C47.c47_muladd",
    "Verif.Props.C47.c47_shift_into_partial",
    "Verif.Props.C47.c47_mov",
    "Verif.Props.C47.c47_op1",
    "Verif.Props.C47.c47_op0",
    "Verif.Props.C47.c47_flags_mov",
    "Verif.Props.C47.c47_flags_op",
    "Verif.Props.C47.c47_select",
    "Verif.Props.C47.c47_compare",
    "Verif.Props.C47.c47_shift_into_false"
   ],
   "note": "All operations, flags and operands. Not proved: sljit_emit_shift_into with a constant count which is a multiple of the width and a destination other than the first source; the code is wrong there (c47_shift_into_false). SLJIT_NOP and SLJIT_MEMORY_BARRIER are not executed by the model."
  },
  {
   "property": "C48",
   "status": "partial",
   "theorems": [
    "Verif.Props.C48.c48_partial",
    "Verif.Props.C48.Demo.sum"
   ],
   "note": "Whole functions on RV64: forward simulation of the API interpreter by the generated machine code, for all bodies and all runs. Partial: the body language has no floating point operations, calls, const/op_addr, aligned labels; operand combinations with a proved defect (C20-C29 _false theorems) are excluded by WellFormed. Demo.sum: a loop, correct for every n."
  },
  {
   "property": "C49",
   "status": "partial",
   "theorems": [
    "Verif.Props.C49.c49_partial",
    "Verif.Props.C49.c49_label_after_mov_false",
    "Verif.Props.C49.c49_mov_at_end_false",
    "Verif.Props.C49.c49_jump_edge_false",
    "Verif.Props.C49.c49_cond_edge_false",
    "Verif.Props.C49.c49_mov_edge_false",
    "Verif.Props.C49.demo_ok",
    "Verif.Props.C49.demo_edge",
    "Verif.Props.C49.demo_run"
   ],
   "note": "The full statement is false in the five cases shown by the _false theorems; c49_partial proves it for all other programs."
  },
  {
   "property": "C50",
   "status": "partial",
   "theorems": [
    "Verif.Props.C50.c50_mov",
    "Verif.Props.C50.c50_op1",
    "Verif.Props.C50.c50_op0_partial",
    "Verif.Props.C50.c50_div32_win",
    "Verif.Props.C50.c50_flags_mov",
    "Verif.Props.C50.c50_flags_op",
    "Verif.Props.C50.c50_select",
    "Verif.Props.C50.c50_compare",
    "Verif.Props.C50.c50_div32_win_false"
   ],
   "note": "Proved for all operations, operands and states, except SLJIT_DIV_U32/S32 on Windows, where the code clears the upper half of SLJIT_R1 (c50_div32_win_false); the lower half and the quotient are right there (c50_div32_win)."
  },
  {
   "property": "C51",
   "status": "proved",
   "theorems": [
    "Verif.Props.C51.c51_return",
    "Verif.Props.C51.c51_return_value",
    "Verif.Props.C51.c51_return_to"
   ],
   "note": "All legal frames and word arguments, System V and Windows; floating point arguments and saved floating point registers on Windows are not modelled."
  },
  {
   "property": "C52",
   "status": "partial",
   "theorems": [
    "Verif.Props.C52.c52_partial",
    "Verif.Props.C52.Demo.sum"
   ],
   "note": "Whole functions on x86-64 (System V): forward simulation of the API interpreter by the generated machine code, byte by byte, for all bodies and all runs. Partial: the body language has no floating point operations, const/op_addr, aligned labels; calls of functions are C58; operand combinations with a proved defect (C46 _false theorems) are excluded by WellFormed. Demo.sum: a loop, correct for every n."
  },
  {
   "property": "C53",
   "status": "partial",
   "theorems": [
    "Verif.Props.C53.c53_partial",
    "Verif.Props.C53.c53_rewrite_again",
    "Verif.Props.C53.c53_const",
    "Verif.Props.C53.c53_cond_at_end_false",
    "Verif.Props.C53.c53_cond_label_at_end_false"
   ],
   "note": "Proved for every program in which some code follows every conditional jump; the excluded case is refuted by the _false theorems (store past the buffer). Code above 2^60 bytes is excluded."
  },
  {
   "property": "C54",
   "status": "proved",
   "theorems": [
    "Verif.Props.C54.c54_return",
    "Verif.Props.C54.c54_return_value",
    "Verif.Props.C54.c54_return_to"
   ],
   "note": "All legal frames (integer and floating point registers, kept registers, locals up to the maximum) and word arguments, outside Windows."
  },
  {
   "property": "C55",
   "status": "partial",
   "theorems": [
    "Verif.Props.C55.c55_partial",
    "Verif.Props.C55.c55_addc_after_sub_false",
    "Verif.Props.C55.Demo.sum"
   ],
   "note": "Forward simulation from the API interpreter to decoded ARM64 words for whole functions, any size and number of steps. Partial: the calls of InsOk (no calls to other functions, floats, constants), at most 23 registers. ADDC after SUB is wrong on ARM64 (c55_addc_after_sub_false)."
  },
  {
   "property": "C56",
   "status": "partial",
   "theorems": [
    "Verif.Props.C56.c56_partial",
    "Verif.Props.C56.Demo.ok",
    "Verif.Props.C56.Demo.sum",
    "Verif.Props.C56.Demo.external"
   ],
   "note": "All functions of a compiler realise their calls at every nesting depth; partial: calls of InsOk, integer arguments, SLJIT_CALL only, at most 23 registers."
  },
  {
   "property": "C57",
   "status": "partial",
   "theorems": [
    "Verif.Props.C57.c57_partial",
    "Verif.Props.C57.Demo.ok",
    "Verif.Props.C57.Demo.sum",
    "Verif.Props.C57.Demo.external"
   ],
   "note": "All functions of a compiler realise their calls on RV64 at every nesting depth; partial: calls of Ins.Ok, integer arguments, SLJIT_CALL only, no kept registers."
  },
  {
   "property": "C58",
   "status": "partial",
   "theorems": [
    "Verif.Props.C58.c58_partial",
    "Verif.Props.C58.Demo.ok",
    "Verif.Props.C58.Demo.sum",
    "Verif.Props.C58.Demo.external"
   ],
   "note": "All functions of a compiler realise their calls on x86-64 (System V) at every nesting depth, with the stack aligned at every call; partial: calls of InsOk, at most four word arguments, SLJIT_CALL only, no kept registers, not Windows, no call of a constant address at the 32 bit edge (c49_jump_edge_false)."
  },
  {
   "property": "C59",
   "status": "partial",
   "theorems": [
    "Verif.Props.C59.c59_partial",
    "Verif.Props.C59.c59_jump_partial",
    "Verif.Props.C59.c59_const_partial",
    "Verif.Props.C59.Demo.ok",
    "Verif.Props.C59.Demo.returns",
    "Verif.Props.C59.Demo.items_ok"
   ],
   "note": "Patching rewritable jumps (and constants with SLJIT_MOV) at run time equals generating the changed program, on x86-64 System V. Missing: the exceptions of C49 and C58, changes while the code runs, page permissions, constants of other types."
  },
  {
   "property": "C60",
   "status": "partial",
   "theorems": [
    "Verif.Props.C60.c60_partial",
    "Verif.Props.C60.c60_jump_partial",
    "Verif.Props.C60.Demo.returns",
    "Verif.Props.C60.Demo.items_ok"
   ],
   "note": "Missing: the calls outside of C56, constants, targets outside of the compiler (only at the level of items), changes while the code runs, page permissions and the instruction cache."
  },
  {
   "property": "C61",
   "status": "partial",
   "theorems": [
    "Verif.Props.C61.c61_partial",
    "Verif.Props.C61.c61_jump_partial",
    "Verif.Props.C61.Demo.returns",
    "Verif.Props.C61.Demo.items_ok"
   ],
   "note": "Missing: the calls outside of C57, constants, targets outside of the compiler (only at the level of items), changes while the code runs, page permissions and the instruction cache."
  },
  {
   "property": "C62",
   "status": "partial",
   "theorems": [
    "Verif.Props.C62.c62_result_partial",
    "Verif.Props.C62.c62_flags_partial",
    "Verif.Props.C62.c62_register",
    "Verif.Props.C62.c62_muladd",
    "Verif.Props.C62.c62_cache_false",
    "Verif.Props.C62.c62_addc32_false",
    "Verif.Props.C62.c62_carry_false",
    "Verif.Props.C62.c62_muladd32_false"
   ],
   "note": "The claim is false for the operands of c62_cache_false, for the upper half of SLJIT_ADDC32/SLJIT_MULADD32 after an overflow and for the carry of additions with the constant 0; everything else is proved (c62_register without any exclusion for register destinations)."
  },
  {
   "property": "C63",
   "status": "partial",
   "theorems": [
    "Verif.Props.C63.c63_move",
    "Verif.Props.C63.c63_unary_partial",
    "Verif.Props.C63.c63_rev32_false"
   ],
   "note": "Moves are proved in full. Bit counting and byte order: everything but the upper half of the register after SLJIT_REV32, where the claim fails (c63_rev32_false)."
  },
  {
   "property": "C64",
   "status": "partial",
   "theorems": [
    "Verif.Props.C64.c64_partial",
    "Verif.Props.C64.c64_false"
   ],
   "note": "Missing: a constant shift amount of zero where dst differs from both sources, for which the claim is false (c64_false)."
  },
  {
   "property": "C65",
   "status": "partial",
   "theorems": [
    "Verif.Props.C65.c65_mov",
    "Verif.Props.C65.c65_logic",
    "Verif.Props.C65.c65_set_partial",
    "Verif.Props.C65.c65_compare_partial"
   ],
   "note": "sljit_emit_op_flags itself is proved without exclusions (c65_mov, c65_logic). The part about setting the flags excludes the operands for which C62 proves the claim false (c62_cache_false, c62_carry_false)."
  },
  {
   "property": "C66",
   "status": "partial",
   "theorems": [
    "Verif.Props.C66.c66_cmp_partial",
    "Verif.Props.C66.c66_jump",
    "Verif.Props.C66.c66_select_partial",
    "Verif.Props.C66.c66_cmp_false",
    "Verif.Props.C66.c66_cmp32_false",
    "Verif.Props.C66.c66_select32_false",
    "Verif.Props.C66.c66_select_false"
   ],
   "note": "Conditional jumps are proved in full (c66_jump). sljit_emit_cmp and sljit_emit_select are proved except for operands where the code is wrong, refuted with concrete witnesses: two memory operands whose second address is far (c66_cmp_false), 32 bit operands in memory against registers (c66_cmp32_false, c66_select32_false), select with dst = src2 = base of a far src1 (c66_select_false). The jump record itself and its placement are not part of this model."
  },
  {
   "property": "C67",
   "status": "proved",
   "theorems": [
    "Verif.Props.C67.c67_op0",
    "Verif.Props.C67.c67_after_addc32_false"
   ],
   "note": "Every execution allowed by the architecture; 32 bit forms for sign extended operands, which SLJIT_ADDC32 does not always leave (c67_after_addc32_false). SLJIT_BREAKPOINT not modelled."
  },
  {
   "property": "C68",
   "status": "proved",
   "theorems": [
    "Verif.Props.C68.c68_muladd"
   ],
   "note": "RV64; 32 bit register operands are sign extended 32 bit values, as 32 bit operations leave them."
  },
  {
   "property": "C69",
   "status": "proved",
   "theorems": [
    "Verif.Props.C69.c69_emit_const",
    "Verif.Props.C69.c69_set_const"
   ],
   "note": "All kinds of constants and destinations."
  },
  {
   "property": "C70",
   "status": "partial",
   "theorems": [
    "Verif.Props.C70.c70_form_partial",
    "Verif.Props.C70.c70_jump_partial",
    "Verif.Props.C70.c70_cmp_partial",
    "Verif.Props.C70.c70_set_jump_addr",
    "Verif.Props.C70.c70_mov_partial",
    "Verif.Props.C70.c70_far_lands",
    "Verif.Props.C70.c70_jump_false",
    "Verif.Props.C70.c70_mov_false"
   ],
   "note": "Missing: far jumps (128 MB to 2 GB) with bit 11 of the distance set, for which the claim is false (c70_far_lands, c70_jump_false), addresses in the last 2 KB of the 2 GB range (c70_mov_false); the positions of labels and jumps in the buffer are not modelled."
  },
  {
   "property": "C71",
   "status": "proved",
   "theorems": [
    "Verif.Props.C71.c71_loong_load",
    "Verif.Props.C71.c71_loong_store",
    "Verif.Props.C71.c71_loong_single",
    "Verif.Props.C71.c71_riscv_load",
    "Verif.Props.C71.c71_riscv_store"
   ],
   "note": "Register pairs on LoongArch64 and RV64, single registers on LoongArch64 (on RV64 they are the moves of C25)."
  },
  {
   "property": "C72",
   "status": "partial",
   "theorems": [
    "Verif.Props.C72.c72_available",
    "Verif.Props.C72.c72_load",
    "Verif.Props.C72.c72_cas",
    "Verif.Props.C72.c72_cas_noflag_partial",
    "Verif.Props.C72.c72_sc",
    "Verif.Props.C72.c72_sc_succeeds",
    "Verif.Props.C72.c72_rmw",
    "Verif.Props.C72.c72_temp_false",
    "Verif.Props.C72.c72_says",
    "Verif.Props.C72.c72_sc_flag"
   ],
   "note": "Full for the load, for compare and swap with the flag, for ll/sc and for the whole read-modify-write with the flag. Without the flag temp_reg does not keep an unsigned value with the top bit set (c72_temp_false), the partial theorem excludes exactly that."
  },
  {
   "property": "C73",
   "status": "partial",
   "theorems": [
    "Verif.Props.C73.c73_available",
    "Verif.Props.C73.c73_load",
    "Verif.Props.C73.c73_store",
    "Verif.Props.C73.c73_succeeds",
    "Verif.Props.C73.c73_rmw",
    "Verif.Props.C73.c73_jump",
    "Verif.Props.C73.c73_flag_partial",
    "Verif.Props.C73.c73_flag_false"
   ],
   "note": "RV64: load, store and the pair are proved for all interleavings; conditional jumps are correct for every failure code of sc. sljit_emit_op_flags is proved for the failure code 1 and refuted for others."
  },
  {
   "property": "C74",
   "status": "partial",
   "theorems": [
    "Verif.Props.C74.c74_partial",
    "Verif.Props.C74.c74_false"
   ],
   "note": "LoongArch64: all operations and destinations; excluded are labels in the last two kilobytes in front of the address + 2^31, where the code is wrong (c74_false)."
  },
  {
   "property": "C75",
   "status": "partial",
   "theorems": [
    "Verif.Props.C75.c75_addr_partial",
    "Verif.Props.C75.c75_label_partial"
   ],
   "note": "RV64: all operations and destinations inside any program; excluded are the programs and addresses for which C18 fails (c18_window_false, c19_false, c40_false)."
  },
  {
   "property": "C76",
   "status": "proved",
   "theorems": [
    "Verif.Props.C76.c76_available",
    "Verif.Props.C76.c76_load",
    "Verif.Props.C76.c76_cas",
    "Verif.Props.C76.c76_sc",
    "Verif.Props.C76.c76_rmw",
    "Verif.Props.C76.c76_flag",
    "Verif.Props.C76.c76_select",
    "Verif.Props.C76.c76_sc_succeeds"
   ],
   "note": "All types and options of the ARM64 port, with and without compare and swap, against a machine where other threads change the memory before and after every instruction. Natural alignment and single step access of a cell are part of the machine model; ordering between different cells is not modelled."
  },
  {
   "property": "C77",
   "status": "proved",
   "theorems": [
    "Verif.Props.C77.c77_available",
    "Verif.Props.C77.c77_load",
    "Verif.Props.C77.c77_store",
    "Verif.Props.C77.c77_rmw",
    "Verif.Props.C77.c77_copy",
    "Verif.Props.C77.c77_flag",
    "Verif.Props.C77.c77_select"
   ],
   "note": "All types and options of the x86-64 port (both ABIs), against a machine where other threads change the memory before and after every instruction, on the emitted bytes. Single step access of a cell is part of the machine model; ordering between different cells is not modelled; x86-32 is not modelled."
  },
  {
   "property": "C78",
   "status": "partial",
   "theorems": [
    "Verif.Props.C78.c78_emitted",
    "Verif.Props.C78.c78_addr_partial",
    "Verif.Props.C78.c78_label_partial"
   ],
   "note": "ARM64: all operations and destinations inside any program; excluded are only programs which end with a conditional jump, for which code generation itself is wrong (C53.c53_cond_at_end_false)."
  },
  {
   "property": "C79",
   "status": "partial",
   "theorems": [
    "Verif.Props.C79.c79_emitted",
    "Verif.Props.C79.c79_addr_partial",
    "Verif.Props.C79.c79_label_partial",
    "Verif.Props.C79.c79_flags_false",
    "Verif.Props.C79.flags_demo"
   ],
   "note": "sljit_emit_op_addr on x86-64 through code generation. Not covered: the programs and addresses where C49 fails, and the flags of SLJIT_ADD_ABS_ADDR, which the code changes although the header says it does not (c79_flags_false proves this for every placed operation with a nonzero address; flags_demo is generated code)."
  },
  {
   "property": "C80",
   "status": "partial",
   "theorems": [
    "Verif.Props.C80.c80_store",
    "Verif.Props.C80.c80_load_partial",
    "Verif.Props.C80.c80_load_false"
   ],
   "note": "Stores are proved for every operand. Loads are proved except when the base is the first register of the pair and the displacement is a multiple of 8 in 0x200..0x7ff0: there the code swaps the two words, which c80_load_false proves for every such operand."
  },
  {
   "property": "C81",
   "status": "proved",
   "theorems": [
    "Verif.Props.C81.c81_load",
    "Verif.Props.C81.c81_store"
   ],
   "note": "Loads and stores for all pairs, operands and states, System V and Windows."
  },
  {
   "property": "C82",
   "status": "proved",
   "theorems": [
    "Verif.Props.C82.c82_update",
    "Verif.Props.C82.c82_supported"
   ],
   "note": "All types, forms, offsets and states."
  },
  {
   "property": "C83",
   "status": "proved",
   "theorems": [
    "Verif.Props.C83.c83_update",
    "Verif.Props.C83.c83_supported"
   ],
   "note": "All move types, loads and stores, pre and post forms, constant and shifted register offsets, registers and states; the supported forms are characterised exactly."
  },
  {
   "property": "C84",
   "status": "proved",
   "theorems": [
    "Verif.Props.C84.c84_update",
    "Verif.Props.C84.c84_supported"
   ],
   "note": "Both sizes, loads and stores, pre and post forms, registers, offsets and states; the supported forms are characterised exactly."
  },
  {
   "property": "C85",
   "status": "proved",
   "theorems": [
    "Verif.Props.C85.c85_update",
    "Verif.Props.C85.c85_supported"
   ],
   "note": "All move types, loads and stores, pre and post forms, registers, offsets and states; the supported forms are characterised exactly."
  }
 ]
}