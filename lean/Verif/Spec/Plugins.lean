/-! C109: numbers of file systems of Linux (`include/uapi/linux/magic.h`, statfs(2)), as far as they are needed to tell files of this machine from files of others. -/
namespace FF.Spec

/-- Network file systems: nfs, cifs (the first version of the protocol), smb, afs, coda, ceph, kafs. -/
def networkFileSystems : List Nat := [0x6969, 0xFF534D42, 0x517B, 0x5346414F, 0x73757245, 0xC36400, 0x6B414653]

/-- cifs with version 2 or 3 of the protocol (`SMB2_SUPER_MAGIC`). -/
def smb2FileSystem : Nat := 0xFE534D42

/-- File systems of disks and of memory: ext2, ext3 and ext4, xfs, btrfs, tmpfs, proc, msdos and vfat, isofs. -/
def localFileSystems : List Nat := [0xEF53, 0x58465342, 0x9123683E, 0x1021994, 0x9FA0, 0x4D44, 0x9660]

end FF.Spec
