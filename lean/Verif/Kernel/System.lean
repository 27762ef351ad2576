import Verif.Kernel.Resolver
import Verif.Kernel.Ksym

/-! # What a system says about its kernel -/

set_option autoImplicit false

namespace Blazesym.Kernel

/-- What is read or asked for outside of the file caches. -/
structure System where
  /-- `src/util.rs:308-320` (`uname_release`). -/
  release : Except Err Bytes
  /-- What reading `/proc/modules` yields. -/
  modules : Except Err Bytes
  /-- What opening `/proc/kcore` yields. -/
  kcore : Except Err Bytes
  /-- `src/kernel/resolver.rs:38-101`: the path of the temporary file with the decompressed contents of a
  file. (In the program every decompression makes a new file, with a path and an identity of its own.) -/
  decompress : Compression → Bytes → Except Err Bytes
  /-- The system calls for BPF programs. -/
  bpfLines : BpfLines

end Blazesym.Kernel
