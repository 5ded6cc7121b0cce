import Verif.Props.Checksums
import Verif.Props.Hashes
import Verif.Props.Streams
import Verif.Props.LruCache
import Verif.Props.Types
import Verif.Props.Base64
import Verif.Props.Utf8
import Verif.Props.CodePages
import Verif.Props.DateTime
import Verif.Props.Adc
import Verif.Props.Lznt1
import Verif.Props.Lzvn
import Verif.Props.Huffman
import Verif.Props.Deflate
import Verif.Props.Zlib
import Verif.Props.BlockTree
import Verif.Props.Fat
import Verif.Props.FatDirectory
import Verif.Props.Ntfs
import Verif.Props.Ext
import Verif.Props.Volumes
import Verif.Props.Tools
import Verif.Props.Vfs
import Verif.Props.Sigscan
import Verif.Props.SparseImage
import Verif.Props.Qcow
import Verif.Props.Vhd
import Verif.Props.Vhdx
import Verif.Props.Bzip2Bwt
import Verif.Props.Udif
import Verif.Props.Ewf
import Verif.Props.Bzip2
import Verif.Props.SparseBundle
import Verif.Props.FatFileSystem
import Verif.Props.ExtFileSystem
import Verif.Props.Formats
import Verif.Props.NtfsFileSystem
import Verif.Props.NtfsCompression
import Verif.Props.Lzx
import Verif.Props.ExtRefused
import Verif.Props.Lzfse
import Verif.Props.NtfsExtendedSample
import Verif.Props.Finder
import Verif.Props.VfsParts
import Verif.Props.VfsScanner
import Verif.Props.VhdxOpen
import Verif.Props.XmlPlist
import Verif.Props.PlistFiles
import Verif.Props.Windows932
import Verif.Props.Wof
import Verif.Props.EwfInfo
import Verif.Props.HashTool
import Verif.Props.ExportTool
import Verif.Props.ImageTool
import Verif.Props.ImageHash
import Verif.Props.InfoTool
import Verif.Props.InfoHierarchy
import Verif.Props.FatListing
import Verif.Props.FatHierarchy
import Verif.Props.Formatters
import Verif.Props.ImageHierarchy
import Verif.Props.VfsEntries
import Verif.Props.VfsForks
import Verif.Props.Layers
import Verif.Props.Location
import Verif.Props.FileResolver
