import Verif.Props.NumList
import Verif.Props.ArrayCopy
import Verif.Props.VM
import Verif.Props.ObjList
import Verif.Props.FnMem
import Verif.Props.StrBuf
import Verif.Props.Hash
import Verif.Props.Sort
import Verif.Props.CList
import Verif.Props.CHash
import Verif.Props.Intern
import Verif.Props.Alloc
import Verif.Props.CStrBuf
import Verif.Props.Shuffle
import Verif.Props.ArrayOps
import Verif.Props.Repeat
import Verif.Props.FnStr
import Verif.Props.Split
import Verif.Props.Utf8
import Verif.Props.Heap
import Verif.Props.Types
import Verif.Props.TypeCache
import Verif.Props.Call
import Verif.Props.Fields
import Verif.Props.NumStr
import Verif.Props.Format
import Verif.Props.Endian
import Verif.Props.Packer
import Verif.Props.Flow
import Verif.Props.Vars
import Verif.Props.Conc
import Verif.Props.Cast
import Verif.Props.Literal
import Verif.Props.StrLit
import Verif.Props.Expr
import Verif.Props.Logic
import Verif.Props.Safety
import Verif.Props.Args
import Verif.Props.Toke
import Verif.Props.Access
import Verif.Props.Parse
import Verif.Props.Load
import Verif.Props.Dump
import Verif.Props.Decl
import Verif.Props.PrecompName
import Verif.Props.Precomp
import Verif.Props.HashTyped
import Verif.Props.Exchange
import Verif.Props.CallMethod
import Verif.Props.Body
import Verif.Props.Program
import Verif.Props.Callback
import Verif.Props.Options
import Verif.Props.Init
import Verif.Props.MethodCall
import Verif.Props.Immutable
import Verif.Props.Destroy
import Verif.Props.DestroyRef
import Verif.Props.CloneEq
import Verif.Props.Reflect
import Verif.Props.Mutex
import Verif.Props.Build
import Verif.Props.Except
import Verif.Props.ArrayAny
import Verif.Props.Guard
import Verif.Props.Complex
import Verif.Props.Mulnum
import Verif.Props.DefaultCmp
import Verif.Props.DumpU
