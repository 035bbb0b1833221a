# Formal model of sljit in Lean 4 — design

Source under study: `/repo` (zherczeg/sljit, pinned).  Nothing in `/repo` is built or run; every definition of
the model carries the file and line range it transcribes.

## Trusted base

* Lean 4.33.0 kernel.  No axioms of our own; theorems may depend on `propext`, `Classical.choice`, `Quot.sound` only.
* The reading of the C code (the model is a hand transcription).
* The *specification* parts of the model: the RISC-V (resp. ARM64, x86-64, ...) instruction semantics/decoders written
  from the ISA manuals; the documented meaning of the LIR operations taken from `sljitLir.h`.
* Configuration: 64 bit little-endian host; argument checks as stated per property.

## Modelling conventions

* Machine words are `BitVec 64` / `BitVec 32` or `Nat` with explicit `% 2^64` when the code does arithmetic on sizes.
* Emitters are modelled as functions returning the list of instruction words that the C function pushes; the words
  are built with the same bit-field macros as the C code and are *decoded back* by an independent ISA decoder.  Theorems
  talk about executing the decoded words, so encoding mistakes are visible.
* C undefined behaviour / out-of-bounds accesses are a distinct result (`none` or `.ub`).
* OS and `malloc` results are oracle inputs (universally quantified).

## Plan per property

| id | model | proof method |
|----|-------|--------------|
| C01–C05 | `Verif/Alloc/*`: word-addressed memory, the boundary-tag allocator transcribed statement by statement, OS as oracle, client writes as operations | ghost state (live blocks, chunks, free list) + invariant preserved by each operation, induction over histories |
| C06 | same, 64 bit wrap-around explicit | negation by witness, `_partial` for sizes below the wrap limit |
| C07 | `Verif/Stack` | invariant over resize sequences |
| C08–C10 | `Verif/CompilerMem`: fragment lists, failing malloc oracle | invariant/refinement to a flat byte list |
| C11–C13 | `Verif/Serialize`: byte-level writer and reader | round trip by induction on lists; negations by witness for the defects found |
| C14, C39 | `Verif/Checks`: the `last_flags` state machine and operand checks | decision logic + induction over call sequences |
| C15–C32, C34, C40, C41 | `Verif/RISCV/*`: RV64 emitters, encoder macros, ISA decoder and interpreter | symbolic execution of the emitted words, bit-vector arithmetic lemmas |
| C33 | `Verif/Calls/*`: emitted copies decoded and executed on symbolic registers | the code depends on the classes of the types only; all class lists by kernel evaluation, values arbitrary |
| C35 | `Verif/X86/{Arch,Emit,EmitLemmas,Steps,EmitStep}`: decoder and interpreter of x86-64 bytes; emit_x86_instruction | decode∘encode for every opcode the caller may store, place of the operand in the state before; VEX prefixes are not modelled |
| C45 | `Verif/A32/{Arch,Ops}` and lemmas `Verif/A32/{Steps,Mem,Single,Shift,Post,Rest,Alu,Op2,Into}`: emit_op2(u/r), emit_shift_into, emit_op, emit_single_op, emit_op_mem, get_cc of the ARM32 backend | execution of the instruction words (decoder and semantics from the ARM manual); composition over temporary registers; results and flags against the specification shared with C20 |
| C47 | `Verif/A64/{Arch,Ops}` and lemmas `Verif/A64/{Dec,Steps,StepsI,StepsM,Post,Mem,Num,Alu,AluI,OpImm,Op2,Into,Op1,Rest}`: emit_op0, emit_op1, emit_op2(u/r), emit_shift_into, emit_op_flags, emit_select, emit_op_imm, emit_op_mem, get_cc of the ARM64 backend | execution of the instruction words (decoder and semantics from the ARM manual); effects composed over temporary registers; results and flags against the specification shared with C20 |
| C48 | `Verif/Prog/{Lir,Compile}` and lemmas `Verif/Prog/{Link,Even,Rel,Exec,Run,Whole}`: interpreter of API calls (specification, from sljitLir.h alone), compiler from API calls to the buffer of the RISC-V backend (label merging of sljit_emit_label, status_flags_state) | forward simulation, one API call at a time, over C18 (layout), C20-C29 (operations), C30-C32 (frame). Code memory is separate from data memory (no self modification). Not in the language: floating point, calls, sljit_emit_const/op_addr, aligned labels, values of kept registers; the combinations with a `_false` theorem are excluded (`Ins.Ok`) |
| C49 | `Verif/X86/{Gen,Mach,GenSpec}` and lemmas `Verif/X86/{MachLemmas,JumpExec,JumpSeq,GenReduce,GenPiece,GenLoop,GenLay}`: reduce_code_size, generate_code with detect_near_jump_type, detect_far_jump_type, generate_mov_addr_code, process_extended_label, generate_jump_or_mov_addr of the x86-64 backend | machine with a program counter over instruction bytes; invariant of the size reduction (a later pass never needs more than it reserved), invariant of the generating loop, then the final pass; each jump sequence executed. Not modelled: sljit_set_code_dump, the allocation itself, set_jump_addr/set_const (their effect, storing 8 bytes, is what `Placed` is stated for) |
| C36 (x86-64), C46 | `Verif/X86/{Ops,OpStep,AluStep,Eff,BinEff,MulEff,ShiftEff,OpEff,Into,JumpCode}`: emit_mov, the binary operations and condition codes of the x86-64 backend | execution of the bytes; effects of instructions composed over intermediate states; results and flags against the specification shared with C20 |
| C50 | `Verif/X86/Ops1` and lemmas `Verif/X86/{MovEff,Op1Eff,SwapEff,FlagEff,Op0Eff}`: sljit_emit_op0 (multiplications, divisions), sljit_emit_op1, sljit_emit_op_flags, sljit_emit_select of the x86-64 backend; CMOV is always available, SLJIT_BREAKPOINT, SLJIT_MEMORY_BARRIER, SLJIT_ENDBR and SLJIT_SKIP_FRAMES_BEFORE_RETURN are not modelled; the result of BSR and BSF for zero is an unspecified function of the state | execution of the bytes, as for C46; the specification of the operations is the one of C24, C26 and C47 |
| C51 | `Verif/X86/Frame` and lemmas `Verif/X86/{Local,FrameEff,FrameAlloc,FrameRel}`: sljit_emit_enter, emit_stack_frame_release, sljit_emit_return_void, sljit_emit_return, sljit_emit_return_to of the x86-64 backend for integer values; sizes are natural numbers; not modelled: floating point arguments and saved floating point registers on Windows, SLJIT_CONFIG_X86_CET, the touched stack pages being a system effect (the probing loads are executed and have no effect) | execution of the bytes from memory with a program counter (`Verif/X86/Mach`): `Verif/X86/Local` proves that decoding an instruction does not depend on the bytes after it |
| C52 | `Verif/XProg/Compile` and lemmas `Verif/XProg/{Link,Rel,Exec,Total,Run,Whole}`: compiler from API calls (the language of C48, `Verif/Prog/Lir`) to the buffer of the x86-64 backend (label merging of sljit_emit_label, sljit_emit_cmp with its operand swap) | forward simulation, one API call at a time, over C46 and C50 (operations), C49 (layout and jumps), C51 (frame); the machine fetches and decodes bytes. Code memory is separate from data memory. System V only; same exclusions of the language as C48; the operand combinations with a `_false` theorem of C46 are excluded (`InsOk`) |
| C53 | `Verif/A64/{Gen,Mach,GenSpec,Const}` and lemmas `Verif/A64/{MachLemmas,JumpWords,JumpSeq,GenReduce,GenPiece,GenLoop,GenLay}`: reduce_code_size, generate_code with detect_jump_type, mov_addr_get_length, process_extended_label, generate_jump_or_mov_addr, emit_const, set_jump_addr, set_const of the ARM64 backend | machine with a program counter over instruction words (branches, ADR/ADRP, the words of C47); invariant of the size reduction, invariant of the generating loop, then the final pass; each of the six jump sequences executed. Not modelled: sljit_set_code_dump, the allocation, cache maintenance, SLJIT_ASSERT; the store of a constant into a memory operand |
| C54 | `Verif/A64/Frame` and lemmas `Verif/A64/{FrameRun,FrameStep,FrameSlots,FrameEff,FrameRel}`: sljit_emit_enter, emit_stack_frame_release, sljit_emit_return_void, sljit_emit_return, sljit_emit_return_to of the ARM64 backend; sizes are natural numbers; not modelled: floating point arguments (sljit_emit_enter emits nothing for them), the upper halves of vector registers, the Windows variant (stack probing) | the machine of C53 extended with pair loads and stores, vector loads and stores, pre and post indexed ones; the saved registers are a list of slots (register, distance from the caller's stack pointer), pairwise apart; executing the saving words stores every slot, executing the releasing words loads it |
| C55 | `Verif/AProg/Compile` and lemmas `Verif/AProg/{Link,Rel,Exec,Total,Run,Whole}`: compiler from API calls (the language of C48) to the word buffer of the ARM64 backend (label merging, sljit_emit_cmp with its operand swap and the cbz/cbnz form of emit_cmp_to0, the status flag state threaded through the calls) | forward simulation, one API call at a time, over C47 (operations), C53 (layout and jumps), C54 (frame); the machine fetches and decodes words. Code memory is separate from data memory. Same exclusions of the language as C48; at most 23 registers; the shift of `c47_shift_into_false` and SLJIT_ADDC after a subtraction (SLJIT_SUBC after an addition) are excluded (`InsOk`) |
| C56 | `Verif/AProg/Compile` (several functions in one compiler, sljit_emit_call, sljit_emit_icall, sljit_emit_ijump with a link); the specification of calls `Verif/Prog/Calls`; lemmas `Verif/Prog/CallLemmas`, `Verif/AProg/{Linked,Calls,CallSim,Module}`; the example `Verif/Prog/CallDemo` | a call runs a `Contract` (a relation between arguments, memory, result, memory after) of the callee on the stack below the caller; what a function does is defined from what its callees do, indexed by the depth of nesting; induction over the depth, and over the steps of a function; the interpreter sees memory with hidden parts (frames of callers, its own private part), the machine memory agrees with it elsewhere; external functions are a parameter with the same contract (calling convention). Local variables have arbitrary contents at the start of a function. Not covered: floating point arguments, SLJIT_CALL_REG_ARG, SLJIT_CALL_RETURN, more than four arguments (not allowed by the API), self modification of code by callees |
| C57 | `Verif/Prog/Compile` (`icall`, `mods`, `compileAll`: several functions in one compiler); lemmas `Verif/Prog/{Linked,CallRun,CallSim,Module}` | as C56, over C48 and C18; the link register is ra (JALR clears the lowest bit of the target, so immediate call targets must be even: `Ins.Ok`); immediate call targets outside of the window of `c18_window_false`. Same exclusions as C56. C48 itself is stated for functions without calls (`WellFormed.calls`) |
| C58 | `Verif/XProg/Compile` (`callArgs` of call_with_args, `emitCallReg`, `emitIcall`, `mods`, `compileAll`); lemmas `Verif/XProg/{Linked,Calls,CallSim,Module}` | as C56, over C52 and C49; CALL puts the return address on the stack (slot of 8 bytes in the specification), which belongs to the protected memory; the caller's alignment of the stack is a hypothesis and is established for every callee. Calls of a constant address at the edge of 32 bits are excluded (`NoEdgeCall`, c49_jump_edge_false). System V only, at most four word arguments. C52 itself is stated for functions without calls (`WellFormed.calls`) |
| C59 | `Verif/X86/Patch` (`setJumpAddr`, `setConst`), `Verif/Prog/Patch` (specification: the program with other targets), `Verif/Props/C59` (`apply`); lemmas `Verif/X86/Patch`, `Verif/XProg/{Patch,Kin}` | two generations that differ in one rewritable target (or one constant) differ in its 8 bytes only (`generate_alike`), whose contents come from C49; so a store gives the code of the other program byte by byte; then C58, and induction over the changes. The permissions of the pages and the flush of the instruction cache are not modelled; targets outside of the compiler only at the level of items (`c59_jump_partial`); constants with SLJIT_MOV |
| C60 | `Verif/A64/Patch` (`storeW`, `setJump`), `Verif/Prog/Patch` (specification: the program with other targets), `Verif/Props/C60` (`goalAddr`, `apply`); lemmas `Verif/A64/Patch`, `Verif/AProg/Patch`, `Verif/Prog/PatchLemmas` | two generations that differ in one rewritable target differ in its four words only (`generate_swap`); a store of these words gives the code of the other program word for word; then C56, and induction over the changes. The permissions of the pages and the flush of the instruction cache are not modelled; targets outside of the compiler only at the level of items (`c60_jump_partial`); no constants |
| C61 | `Verif/RISCV/Gen` (`jaddr`), `Verif/RISCV/Const` (`setJumpAddr`), `Verif/Prog/Patch` (specification), `Verif/Props/C61` (`goalAddr`, `apply`, `applyAll`); lemmas `Verif/RISCV/Patch`, `Verif/Prog/PatchLink`, `Verif/Prog/PatchLemmas` | as C60, with half words: two generations that differ in one rewritable target differ in its twelve half words only; sljit_set_jump_addr meets its assertions on them and gives the half words for the other target; then C57, and induction over the changes. Not modelled: page permissions, instruction cache, 32 bit mode, SLJIT_CONST |
| C62 | `Verif/Loong/{Arch,Encode,Ops,Mem,Api}` (instructions with decoder, emit_single_op, getput_arg with its cache, emit_op, sljit_emit_op2/op2u/op2r), specification in `Verif/Props/C62`; lemmas `Verif/Loong/{Wp,OpsRules,OpsProof,OpsProof2,MemProof,EmitOpProof,EmitOp2Proof}` | per instruction weakest preconditions over the decoded words; each emitter refines the documented value; an invariant on the cached constant (`CacheOk`) carries the address computations. Excluded by `_partial`: the operands of `c62_cache_false`, `c62_addc32_false`, `c62_carry_false`. Not modelled: LSX/LASX, floating point (atomics: C72) |
| C63 | `Verif/Loong/Api1` (sljit_emit_op1), specification in `Verif/Props/C63` over `width`, `moved`, `computes` of `Verif/Props/C24`; lemmas `Verif/Loong/Op1Proof` | refinement of emit_op for one operand; moves are proved without exclusions (`c63_move`), bit operations except the upper half after SLJIT_REV32 (`c63_unary_partial`, `c63_rev32_false`) |
| C64 | `Verif/Loong/Api2` (emit_op_mem, sljit_emit_shift_into), specification in `Verif/Props/C64` over `into`, `result` of `Verif/Props/C27`; lemmas `Verif/Loong/Into` | refinement over the decoded words; excluded by `_partial`: a constant shift amount of zero with dst different from src1 and src2 (`c64_false`) |
| C65 | `Verif/Loong/Api3` (emit_op_mem2, sljit_emit_op_flags), specification in `Verif/Props/C65` over `CondOf`, `combine` of `Verif/Props/C29`; lemmas `Verif/Loong/FlagsOp` | a relation between flag registers and conditions (`Says`): established by sljit_emit_op2/op2u (`c65_set_partial`, exclusions of C62), consumed by sljit_emit_op_flags without exclusions (`c65_mov`, `c65_logic`) |
| C66 | `Verif/Loong/Branch` (branch instructions and a machine with a program counter), `Verif/Loong/Api4` (get_jump_instruction, sljit_emit_cmp without the jump record, sljit_emit_select), specification in `Verif/Props/C66` over `rel` of `Verif/Props/C28` and `Says` of `Verif/Props/C65`; lemmas `Verif/Loong/CmpProof`, `Verif/Loong/Select` | where the branch goes, for every distance that sljit_generate_code may store into it (`c66_cmp_partial`, `c66_jump`); select wherever it is stored (`c66_select_partial`). Excluded and refuted: `c66_cmp_false`, `c66_cmp32_false`, `c66_select32_false`, `c66_select_false`. The exclusion `CmpDefect` is coarser than the defect: some far second operands are right, because the cached address or constant is used |
| C67 | `Verif/Loong/Div` (division instructions as a relation: a result the manual leaves open is any value; sljit_emit_op0 without SLJIT_BREAKPOINT), specification `spec` of `Verif/Props/C34` | every execution gives the documented product, quotient and remainder (`c67_op0`). The 32 bit forms need sign extended operands, as DIV.W does; after SLJIT_ADDC32 that fails (`c67_after_addc32_false`). DBAR is modelled as doing nothing (one thread). |
| C68 | `emitMulAdd` of `Verif/RISCV/Api` (sljit_emit_op2r), specification `macc` in `Verif/Props/C68` | the accumulated value and what stays unchanged, for every operand combination (`c68_muladd`) |
| C69 | `Verif/Loong/Const` (emit_const, sljit_emit_const, sljit_set_jump_addr, sljit_set_const; cache flush and W^X switching left out, a failed SLJIT_ASSERT is the outcome `none`), lemmas `Verif/Loong/ConstProof`; specification `constVal` of C16 and `ResultW` of C63 | the initial value (`c69_emit_const`) and any number of rewrites (`c69_set_const`), for every destination |
| C70 | `Verif/Loong/Jump` (detect_jump_type, load_addr_to_reg, the last loop of sljit_generate_code, mov_addr_get_length, sljit_set_jump_addr for jumps; machine `stepJ` with jirl, b, bl, pcaddu12i) and lemmas `Verif/Loong/{JumpProof,JumpProof2}`; the words of one jump are a list, a failed SLJIT_ASSERT is `none`; the loop over the buffer (positions of jumps and labels) is not modelled: for labels the selected form is a hypothesis of `c70_form_partial`, for addresses it is computed (`c70_jump_partial`) | `Says` of C65, `holds` of C66, `After` |
| C71 | `Verif/Loong/Pair`, `Verif/RISCV/Pair` (sljit_emit_mem for register pairs, sljit_emit_mem_unaligned on LoongArch64) and lemmas `Verif/{Loong,RISCV}/PairProof`; alignment flags do not change the code, `memw + 0x800` wraps around | `View`, `Loaded`, `Stored` (what an application sees), `load`/`store` of C24 |
| C72 | `Verif/Loong/Atomic` (sljit_emit_atomic_load/store; amcas, ll, sc; a machine where other threads change the memory before and after every instruction), lemmas `Verif/Loong/AtomicProof` | relation between start, end and the log of own memory updates; every execution is covered, and one exists. Memory is sequentially consistent: barriers and alignment are not modelled. A reservation ends at the latest when the cell gets another value (ABA changes may keep it, which only makes the theorems stronger). amcas with rd = rj or rd = rk is undefined. Excluded by `_partial`: temp_reg in the case of `c72_temp_false` |
| C73 | `Verif/RISCV/Atomic` (sljit_emit_atomic_load/store; lr, sc), lemmas `Verif/RISCV/AtomicProof` | as C72; sc fails with any code that is not zero, and may always fail. Excluded by `_partial`: sljit_emit_op_flags after a failure code other than 1 (`c73_flag_false`) |
| C74 | `Verif/Loong/OpAddr` (sljit_emit_op_addr with the words of the address in place, and its lemmas) | equation for the machine with jumps of C70; excluded by `_partial`: the two kilobytes of `c70_mov_false` (`c74_false`) |
| C75 | `Verif/RISCV/OpAddr` (sljit_emit_op_addr as pieces of a program, and its lemmas), code generation of C18 | refinement: any program around the operation; excluded by `_partial`: what C18 excludes |
| C76 | `Verif/A64/Atomic` (sljit_emit_atomic_load/store with and without `__ARM_FEATURE_ATOMICS`; cas, ldxr, stxr), lemmas `Verif/A64/AtomicProof` | as C72; memory is sequentially consistent (ordering of accesses to different cells is not modelled) and a cell is accessed in one step. stxr may always fail. jumps on the two conditions are covered by the condition code only (`Flag`) |
| C77 | `Verif/X86/Atomic` (sljit_emit_atomic_load/store of x86-64; lock cmpxchg), lemmas `Verif/X86/AtomicProof` | as C76; the x86-32 variant (which needs byte registers and stack slots) is not modelled. Whether a successful 32 bit cmpxchg clears the upper half of RAX is left open. Jumps on the two conditions are covered by the condition code only (`Flag`) |
| C78 | `Verif/A64/OpAddr` (sljit_emit_op_addr) on top of C53 (code generation) and C47 (memory operands) | as C53; programs which end with a conditional jump are excluded (`c53_cond_at_end_false`) |
| C79 | `Verif/X86/OpAddr` (sljit_emit_op_addr) on top of C49 (code generation) and C46 (memory operands) | as C49; SLJIT_ADD_ABS_ADDR modifies the flags (`c79_flags_false`) |
| C80 | `Verif/A64/Pair` (sljit_emit_mem with SLJIT_REG_PAIR) on the machine of C53/C54 (`A64/Mach`, which has LDP and STP) | loads where the first register is the base fail for some displacements (`c80_load_false`); single registers are the moves of C47 |
| C81 | `Verif/X86/Pair` (sljit_emit_mem with SLJIT_REG_PAIR) on the machine of C46 (`X86/Arch`) | ADJUST_LOCAL_OFFSET is applied by the caller of the model (as in C46); single registers are the moves of C46 |
| C82 | `Verif/A64/MemUpd` (sljit_emit_mem_update) with its own decoder `updStep` for loads and stores with write-back, which agrees with `A64/Mach` on 64 bit words (`updStep_mach`) | SLJIT_SP as the base is excluded by the API; sljit_emit_fmem_update is C84 |
| C83 | `Verif/A32/MemUpd` (sljit_emit_mem_update), with `updStep` for loads and stores with write-back on top of the decoder of `A32/Arch` | SLJIT_SP as the base is left out; an index equal to the base is left out (UNPREDICTABLE before ARMv6) |
| C84 | `Verif/A64/FMemUpd` (sljit_emit_fmem_update) with `fupdStep`, a machine with the low 64 bits of the vector registers | the upper halves of vector registers are not modelled; SLJIT_SP as the base is left out |
| C85 | `Verif/A32/T2MemUpd` (sljit_emit_mem_update, push_inst32 and sljit_mem32 of the Thumb-2 back end) with its own decoder `T2.step` for loads and stores with write-back | of the rest of the Thumb-2 back end only constants (Imm) and call arguments (Calls) are modelled; SLJIT_SP as the base is left out |
| C36, C37 | `Verif/Imm/*`: emitters of constants, decoders and interpreters of the instructions used | execution of the emitted words, bit by bit lemmas over all constants; completeness of the 12 bit fields by kernel evaluation |
| C38 | `Verif/Checks` generic swap tables | finite table × all operands |
| C42 | `Verif/WX` | arithmetic |

Properties which turn out to be false of the code are kept: the negation is proved on a concrete witness and a
`_partial` theorem states what does hold.

## Modules

| module | models | not modelled |
|--------|--------|--------------|
| `Alloc/*` | `allocator_src/sljitExecAllocatorCore.c`, chunk functions as oracle | the lock, `mmap` itself |
| `Alloc/WX` | `sljitWXExecAllocatorPosix.c` | `mprotect` effects beyond the page range |
| `Util/*` | `sljitUtils.c` stack | Windows variant |
| `RISCV/ISA` | specification: RV64 I/M/C, Zba, Zbb instructions used by the backend (decoder and interpreter) | traps, fences, memory ordering |
| `RISCV/Encode*` | encoding macros of `sljitNativeRISCV_common.c` | float opcodes other than loads/stores |
| `RISCV/LoadImm*` | `load_immediate` (RV64) | RV32 variant |
| `RISCV/Const*` | `sljit_emit_const`, `sljit_set_const`, `sljit_set_jump_addr` | cache flush |
| `RISCV/LoadAddr*` | `mov_addr_get_length`, `load_addr_to_reg` | |
| `RISCV/Gen*` | `detect_jump_type`, `reduce_code_size`, `sljit_generate_code` including labels, aligned labels, constants, jumps and move-address records | the three record lists and the buffer fragments are one list; allocation failure |
| `RISCV/Ops`, `OpSpec`, `OpsRules`, `OpsProof*`, `OpsAll` | `emit_single_op` (integer operations); `OpSpec` is the specification | |
| `RISCV/Mem*` | `push_mem_inst`, `getput_arg`, `getput_arg_fast`, `can_cache`, `emit_op_mem(2)`, `emit_op` | signed overflow of displacement differences is wrap around |
| `RISCV/Api`, `EmitOp*Proof` | `sljit_emit_op2`, `sljit_emit_op2u`, `sljit_emit_op2r` | `status_flags_state` |
| `RISCV/Op1Spec`, `Op1Proof`, `ClzProof`, `Op1Emit`, `Blk` | `emit_clz_ctz`, `emit_rev`, `emit_rev16`, `sljit_emit_op1`; `Op1Spec` and `Props/C24` are the specification, `Blk` reasons about code with loops | |
| `RISCV/Api2`, `OpMemProof`, `ShiftInto`, `CmpProof`, `FlagsOp`, `Select` | `sljit_emit_op0`, `emit_op_mem`, `sljit_emit_shift_into`, `get_jump_instruction`, `sljit_emit_cmp`, `sljit_emit_op_flags`, `sljit_emit_select` | `SLJIT_BREAKPOINT`, float conditions of `op_flags` and `select` only through the flag register |
| `RISCV/Frame`, `FrameProof` | `sljit_emit_enter`, `emit_stack_frame_release`, `sljit_emit_return_void`, `sljit_emit_return` (integer), `sljit_emit_return_to`, `sljit_emit_ijump`, `sljit_emit_icall` with register and memory targets, the counts of `check_sljit_emit_enter` | the body is any state change within the declared registers and locals; float return values; vector registers (the backend saves none) |
| `Calls/Machine`, `Calls/Spec` | specification: the register copies of MIPS64, PPC64, x86-64 and ARM VFP (decoders), the argument places of the n64, ELFv1/v2, System V, Windows x64 and AAPCS-VFP conventions | everything else of these machines |
| `Calls/Shuffle`, `Lemmas`, `Tables` | `call_with_args` of MIPS64, PPC64, x86-64 (both), `hardfloat_call_with_args` of ARM32 and Thumb-2, argument part of the ARM32 `sljit_emit_enter` | conventions which use the stack (x86-32, MIPS32, ARM soft float); VEX encoding; the jump itself |
| `Imm/A64`, `Imm/A32` and the namespaces `La`, `Z`, `Pp`, `Mi` | specification: decoders and interpreters of the constant building instructions of ARM64, ARM32/Thumb-2, LoongArch64, S390X, PPC64, MIPS64 (DecodeBitMasks, ARMExpandImm, ThumbExpandImm) | all other instructions |
| `Imm/Arm64*`, `Imm/Arm32*`, `Imm/Thumb*`, `Imm/Loong*`, `Imm/S390x*`, `Imm/Ppc*`, `Imm/Mips*` | `load_immediate` of each backend (`push_load_imm_inst` of S390X), `logical_imm` of ARM64, `get_imm` and `compute_imm` of ARM32, `get_imm` of Thumb-2 | placement of the ARM32 literal pool (the load of a literal gives the recorded constant) |
| `RISCV/Wp` | symbolic execution of straight line code (helper) | |
| `Generic/CompilerMem*` | `sljit_create_compiler`, `sljit_free_compiler`, `ensure_buf`, `ensure_abuf`, `sljit_alloc_memory`, `reverse_buf`; emit functions are arbitrary lists of pushes (each piece at most 256 bytes, the assertion of ensure_buf) | ARMv6 constant pool; what the pushes contain |
| `Generic/Serialize*`, `Generic/Recs` | `sljit_serialize_compiler`, `sljit_deserialize_compiler` (64 bit little endian, no CPU feature word check beyond the header fields), the API steps which create labels, jumps and constants | ARMv6 constant pool section; `sljit_jump`/`sljit_label` pointer identity (list index instead) |
| `Generic/Flags*` | the `last_flags` part of every `check_sljit_*` function | operand checks (next row) |
| `Generic/Operands*` | `function_check_src`, `_dst`, `_src_mem`, float and vector register checks, the register part of `check_sljit_emit_enter`, `set_emit_enter`, generic `sljit_emit_cmp` | 32-bit architectures (virtual registers, register pairs); the ARM64 shortcut of `sljit_emit_cmp` |

## Findings (properties which do not hold of the code as written)

Each is proved as a negation on a concrete witness, or is listed with the reason why it is only described.

* C06: sizes near 2^64 wrap in `sljit_malloc_exec` (`c06_false`, `c06_wx_false`).
* C19 (RISC-V): if the last item of a program is a conditional jump which is shortened to a branch, `generate_code`
  writes one half word (its placeholder) outside of the buffer (`c19_false`).
* C40 (RISC-V, and by reading also MIPS and LoongArch): a label at the very end of the code gets its writable
  address instead of the executable one (`c40_false`).
* C41 (RISC-V): `sljit_get_generated_code_size` is twice the real size (`c41_false`, `c41_partial`).
* C18 (RISC-V): addresses in `0x7fffffffff800..0x7ffffffffffff` are loaded incorrectly (`c18_window_false`); compressed
  conditional jumps to a constant address 256 bytes away go 256 bytes backwards (`c18_cond16_false`).
* C12: `sljit_deserialize_compiler` copies a fragment of any size that is inside of the buffer into a 4080 byte area
  (`c12_false`), and the products `count * size` wrap so 2^61 labels are accepted in an 80 byte buffer (`c12_count_false`).
* C14: the argument checker lets flags be used after calls which may destroy them: `c14_clz_false`, `c14_call_false`,
  `c14_shift_into_false`, `c14_fop_false`, `c14_fcmp_false`, `c14_cmpF_false`, `c14_op2cmpz_false`. `CHECK_UNORDERED` is dead code
  (`unordered_dead`): it compares a number with its lowest bit cleared with the odd constant SLJIT_ORDERED.
* C13: `sljit_deserialize_compiler` does not restore the float and vector register counts of the argument checker
  (`c13_false`, `c13_vector_false`).
* C44: the number of kept registers is compared with the packed `saveds` argument (`c44_false`).
* C45 (ARM32): SLJIT_ADDC with a constant first operand whose negation is an immediate is emitted as SBC of the negated constant, off by one (`c45_addc_imm_false`).
* C45 (ARM32): SLJIT_ADDC and SLJIT_SUBC without flags of a constant whose negation is a pair of immediates are off by one (`c45_addc_double_false`, `c45_subc_double_false`).
* C45 (ARM32): SLJIT_XOR of the constants -1 and c, where only ~c is an immediate, gives 0 or fails an assertion (`c45_xor_false`).
* C45 (ARM32): sljit_emit_shift_into with a constant count of 0 (mod 32) emits nothing, although the destination may differ from the first source (`c45_shift_into_false`).
* C45 (ARM32): emit_op_mem computes `argw + sign` for absolute addresses near 2^31, a signed overflow in C; the model wraps.
* C47 (ARM64): sljit_emit_shift_into with a constant count of 0 (mod the width) emits nothing, although the destination may differ from the first source (`c47_shift_into_false`).
* C47 (ARM64): sljit_emit_select with SLJIT_32 loads 8 bytes of a memory operand of 4 bytes; the value is right, the access may go beyond the operand. SLJIT_NOP and SLJIT_MEMORY_BARRIER are not executed by the model.
* C46 (x86-64): the general versions of emit_cum_binary and emit_non_cum_binary move the first operand to the destination before the address of the second operand is used, so `ADD R0, R1, [R0]` reads from a wrong address (`c46_add_false`, `c46_sub_false`).
* C46 (x86-64): emit_mul computes `MUL R0, R1, [R0]` in TMP_REG1 and never moves it to R0 (`c46_mul_false`).
* C46 (x86-64): emit_shift keeps SLJIT_R3 in TMP_REG2 while a far address of the count is loaded into TMP_REG2; SLJIT_R3 is destroyed (`c46_shift_false`, `c46_op2u_shift_false`).
* C46 (x86-64): sljit_emit_shift_into emits nothing for a constant zero count, although the destination may differ from src1 (`c46_into_zero_false`); it moves src1 to the destination before the destination is used in the address of the count (`c46_into_mem_false`); with src1 = SLJIT_R3 (rcx) and the count in the destination, SLJIT_R3 is overwritten before it is copied (`c46_into_rcx_false`).
* C46 (x86-64): SLJIT_SUB of the constant -2^63 without flags evaluates `-src2w` on sljit_sw, which is undefined in C; the model takes the wrapped value.
* C50 (x86-64): SLJIT_DIV_U32 and SLJIT_DIV_S32 on Windows save and restore SLJIT_R1 with 32 bit moves, so its upper half becomes zero although it has to be preserved (`c50_div32_win_false`).
* C49 (x86-64): reduce_code_size merges labels and jumps by address; a label which directly follows a move address is processed before it, so its position is too large by the bytes which the move address saves. A later backward jump is then estimated shorter than it is, and generate_code writes past the requested buffer (`c49_label_after_mov_false`).
* C49 (x86-64): a move address near the end of the code: all 10 bytes are copied before they are shortened; the copy goes past the end of the requested buffer (`c49_mov_at_end_false`).
* C49 (x86-64): detect_near_jump_type measures from the end of a 5 byte conditional jump and a 6 byte unconditional one (the sizes are 6 and 5): with SLJIT_REWRITABLE_JUMP unset and a target at the edge of the 32 bit range, the stored distance overflows and the jump goes elsewhere (`c49_jump_edge_false`, `c49_cond_edge_false`). generate_mov_addr_code measures from the end of a 10 byte instruction and uses one of 7 bytes (`c49_mov_edge_false`).
* C49 (x86-64), debug builds only, not proved: SLJIT_ASSERT(addr <= HALFWORD_MAX) in generate_jump_or_mov_addr fails for 32 bit addresses above 0x7fffffff.
* C53 (ARM64): a conditional jump at the end of the code (with or without a label behind it): reduce_code_size reserves one word for it, sljit_generate_code copies the branch behind this word before the jump is shortened; the copy goes past the end of the requested buffer (`c53_cond_at_end_false`, `c53_cond_label_at_end_false`).
* C55 (ARM64): SLJIT_ADDC after SLJIT_SUB | SLJIT_SET_CARRY is accepted by the argument checks (sljitLir.c:1860-1864) but adds the inverted borrow (`c55_addc_after_sub_false`); sljit_emit_op_flags reports the borrow itself. Observed, not stated as a theorem: sljit_emit_select with SLJIT_32 and a memory operand loads 8 bytes.
* C62 (LoongArch64): getput_arg overwrites TMP_REG3 with the shifted offset register of an indexed operand but does not reset `cache_arg`; with a second source and a destination whose large displacements are close (and whose bases differ) the result is stored to a wrong address (`c62_cache_false`).
* C62 (LoongArch64): SLJIT_ADDC32 and SLJIT_MULADD32 add with ADD.D, so after a signed 32 bit overflow the destination is not sign extended (`c62_addc32_false`, `c62_muladd32_false`).
* C62 (LoongArch64): the carry flag of SLJIT_ADD/SLJIT_ADDC with a constant 0 is left unchanged as on RISC-V (`c62_carry_false`).
* C63 (LoongArch64): SLJIT_REV32 uses REVB.2W, which does not sign extend its result; a following signed 32 bit comparison misreads it (`c63_rev32_false`).
* C64 (LoongArch64): sljit_emit_shift_into with a constant shift amount of zero emits nothing, so dst does not receive src1 (`c64_false`), as on RISC-V (`c27_false`).
* C66 (LoongArch64): sljit_emit_cmp with two memory operands loads the first into TMP_REG1 and then computes a far address of the second in TMP_REG1, because MEM_USE_TMP2 is not passed (sljitNativeLOONGARCH_64.c:2883; RISC-V passes it): the comparison uses an address instead of the first operand (`c66_cmp_false`).
* C66 (LoongArch64): 32 bit comparisons and selects load memory zero extended while registers are sign extended (`c66_cmp32_false`, `c66_select32_false`); select with dst = src2 = base of src1 and a far or shifted address destroys the base (`c66_select_false`), as on RISC-V.
* C67 (LoongArch64): since SLJIT_ADDC32 does not sign extend, a 32 bit division of its result has an operand for which DIV.W and DIV.WU are not defined (`c67_after_addc32_false`).
* C70 (LoongArch64): a jump or call to a target between 128 megabytes and 2 gigabytes away (PATCH_REL32) is followed 4096 bytes behind its target when bit 11 of the distance is set: load_addr_to_reg adds 0x1000 for a sign extended lower part, as RISC-V needs, but the offset of JIRL is stored as the positive number `(addr & 0xfff) >> 2` (`c70_far_lands`, `c70_jump_false`). The address of a label 2 gigabytes minus at most 2 kilobytes ahead is loaded with an error of 2^32 (`c70_mov_false`).
* C72 (LoongArch64): sljit_emit_atomic_store without SLJIT_SET_ATOMIC_STORED lets amcas write the sign extended old value to temp_reg, so after a successful store of SLJIT_MOV_U8, SLJIT_MOV_U16 or SLJIT_MOV_U32 temp_reg has not kept a value with the top bit set (`c72_temp_false`); with the flag a copy is used. temp_reg = mem_reg is not refused by check_sljit_emit_atomic_store, but amcas is undefined then.
* C73 (RV64): sljit_emit_op_flags of SLJIT_ATOMIC_STORED inverts the lowest bit of the code which sc has written, so a store that fails with the code 2 is reported as successful (`c73_flag_false`). The instruction set only says that the code is not zero; 1 is the only code defined now. Jumps compare with zero and are correct (`c73_jump`).
* C74 (LoongArch64): the window of `c70_mov_false` reaches sljit_emit_op_addr (`c74_false`).
* C79 (x86-64): sljit_emit_op_addr is documented not to modify flags (sljitLir.h:2413-2414), but SLJIT_ADD_ABS_ADDR is compiled to an `add` instruction (sljitNativeX86_common.c:5264-5267), so the conditions set by an earlier operation are lost (`c79_flags_false`, `flags_demo`).
* C80 (ARM64): sljit_emit_mem loading SLJIT_REG_PAIR(r1, r2) from SLJIT_MEM1(r1) with a displacement which is a multiple of 8 between 0x200 and 0x7ff0 swaps the two words: sljitNativeARM_64.c:2716-2717 load r2 from `memw` and r1 from `memw + 8` (`c80_load_false`).
* C30 (RISC-V): as a consequence of C44, three kept registers with no saved register and one saved float register give a frame of size 0, so the return address is stored below the stack pointer (`c30_kept_false`).
* C33 (Thumb-2): with three or more F32 arguments `hardfloat_call_with_args` writes the third to the odd half of the VFP register instead of the even one (`c33_thumb_false`).
* C33 (PPC64 `sljit_emit_icall`; ARM32 and Thumb-2 `sljit_emit_call`, `sljit_emit_icall`): SLJIT_CALL_REG_ARG | SLJIT_CALL_RETURN shuffles the arguments as for a C function, because `type` is replaced by SLJIT_JUMP before it is compared to SLJIT_CALL_REG_ARG (`c33_regarg_tail_false`).
* C20, C21 (RISC-V): SLJIT_ADD/SLJIT_SUB | SLJIT_SET_OVERFLOW on two constants, one of them 0, emits `c.mv x5, x0`, which is
  the encoding of `c.jr x5` (`c20_overflow_false`).
* C21, C22 (RISC-V, and by reading also LoongArch): SLJIT_ADD/SLJIT_ADDC | SLJIT_SET_CARRY with the constant 0 as first source,
  or as second source of an operation in place, leaves the carry flag unchanged (`c21_carry_false`, `c21_carry_false'`), so a
  multi-word increment is wrong (`c22_false`).
* C27 (all backends, proved for RISC-V): `sljit_emit_shift_into` with a constant shift amount that is zero modulo the width emits nothing, so dst does not receive src1 when they differ (`c27_false`).
* C28 (RISC-V): 32 bit `sljit_emit_cmp` loads memory operands with LWU (zero extended) while 32 bit values in registers are sign extended, so comparing a register with an equal memory cell whose upper bit is set reports a difference, and signed order is wrong (`c28_false`, `c28_signed_false`). Constants are not truncated to 32 bits either.
* C29 (RISC-V): 32 bit `sljit_emit_select` loads a memory source with LWU, so the result is not sign extended as the other 32 bit operations expect (`c29_select32_false`).
* C26, C29 (RISC-V): `sljit_emit_select` with dst = src2 and a memory source whose base is dst computes the address in dst when the offset does not fit, which destroys the base first (`c29_select_false`).
* C24 (RISC-V): SLJIT_REV32 without Zbb leaves a zero extended result, which the 32 bit comparisons of the same backend then
  misread (`c24_rev32_false`).
* C25, C26 (RISC-V): with Zbb, SLJIT_MOV_S8, SLJIT_MOV_U16 and SLJIT_MOV_S16 from a register to memory extend the value in the
  source register itself: the source is destroyed (`c25_store_false`), and the address is wrong when the base is the same
  register (`c25_store_addr_false`).
