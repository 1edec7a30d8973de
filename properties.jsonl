{"id": "C01", "title": "Collapsing an address list never changes which addresses it denotes", "statement": "For any list of IPv4/IPv6 networks and any list of complement networks, the set of (version, address) pairs covered by the list returned by CollapseAddrList(addresses, complement_addresses) is exactly the set covered by the input.", "quantifier": "all lists of networks of either family, any order, any duplicates, any nesting, and all complement lists", "why_tests_cant": "The merge loop re-examines its own output, so the interesting inputs are long adjacency/nesting chains; tests only try a few fixed lists.", "anchors": ["capirca/lib/nacaddr.py:CollapseAddrList", "capirca/lib/nacaddr.py:_CollapseAddrListInternal", "capirca/lib/nacaddr.py:_SafeToMerge"]}
{"id": "C02", "title": "Collapsing yields a canonical form", "statement": "Without complements the list returned by CollapseAddrList is sorted, its members are pairwise disjoint and no two members are halves of one larger network; consequently the result depends only on the set of addresses denoted: any two inputs denoting the same set (reorderings, duplicates, already-collapsed lists) give the same list, and collapsing is idempotent.", "quantifier": "all pairs of network lists with the same denotation", "why_tests_cant": "Order-independence and idempotence quantify over all permutations and all equivalent inputs.", "anchors": ["capirca/lib/nacaddr.py:CollapseAddrList", "capirca/lib/nacaddr.py:SortAddrList"]}
{"id": "C03", "title": "Collapsing yields the fewest networks", "statement": "No list of CIDR networks that covers exactly the same addresses as the input is shorter than the list CollapseAddrList returns (without complements).", "quantifier": "all network lists, compared against every other list with the same denotation", "why_tests_cant": "Minimality compares with infinitely many competing lists.", "anchors": ["capirca/lib/nacaddr.py:CollapseAddrList"]}
{"id": "C04", "title": "Collapsing with complements keeps most-specific-match intent", "statement": "On a platform where the most specific of the include/exclude prefixes decides, replacing an include list by CollapseAddrList(include, exclude) never changes, for any address, whether the address is matched (the guarantee promised in the docstring of CollapseAddrList).", "quantifier": "all include lists, all exclude lists, all addresses", "why_tests_cant": "Needs every combination of nested and adjacent prefixes and excludes; unit tests only try nested ones.", "anchors": ["capirca/lib/nacaddr.py:CollapseAddrList", "capirca/lib/nacaddr.py:_SafeToMerge"]}
{"id": "C05", "title": "Token-preserving collapse keeps the address set", "statement": "CollapseAddrListPreserveTokens returns a list covering exactly the same addresses as its input, and every returned network carries the token of some input network.", "quantifier": "all lists of networks with arbitrary tokens", "why_tests_cant": "The in-place de-duplication loop deletes while iterating; only a proof covers all group interleavings.", "anchors": ["capirca/lib/nacaddr.py:CollapseAddrListPreserveTokens", "capirca/lib/nacaddr.py:IsSuperNet"]}
{"id": "C06", "title": "Removing one network is exact set difference", "statement": "RemoveAddressFromList(superset, exclude) returns a sorted list covering exactly the addresses of superset that are not in exclude; it never raises.", "quantifier": "all network lists and all excluded networks, both families", "why_tests_cant": "Splitting a network around an exclude produces up to 128 pieces; boundaries differ for every prefix pair.", "anchors": ["capirca/lib/nacaddr.py:RemoveAddressFromList", "capirca/utils/iputils.py:exclude_address"]}
{"id": "C07", "title": "Splitting a network around a hole is an exact partition", "statement": "exclude_address(base, hole) raises ValueError exactly when hole is not inside base; otherwise the networks produced are pairwise disjoint, none overlaps the hole, and together with the hole they cover exactly base.", "quantifier": "all pairs of networks of the same family", "why_tests_cant": "There are 2^32 (2^128) alignments of hole against base.", "anchors": ["capirca/utils/iputils.py:exclude_address"]}
{"id": "C08", "title": "Excluding address lists is exact set difference", "statement": "AddressListExclude(superset, excludes) (default collapse_addrs=True, also exported as ExcludeAddrs) covers exactly the addresses of superset not covered by excludes, and its result is in collapsed canonical form.", "quantifier": "all pairs of network lists of mixed families", "why_tests_cant": "The two-stack sweep's correctness depends on an ordering invariant over arbitrarily long lists.", "anchors": ["capirca/lib/nacaddr.py:AddressListExclude", "capirca/lib/nacaddr.py:ExcludeAddrs"]}
{"id": "C09", "title": "Excluding without collapsing is exact set difference", "statement": "AddressListExclude(superset, excludes, collapse_addrs=False) covers exactly the addresses of superset not covered by excludes, for every superset including ones with overlapping members.", "quantifier": "all pairs of network lists", "why_tests_cant": "Overlap patterns between superset members and excludes are unbounded.", "anchors": ["capirca/lib/nacaddr.py:AddressListExclude"]}
{"id": "C10", "title": "Containment of address lists is sound and, on collapsed lists, complete", "statement": "IsSuperNet(supernets, subnets) returns True only if every address of subnets is in supernets, and, when supernets is a collapsed list, it returns True whenever every address of subnets is in supernets.", "quantifier": "all pairs of network lists", "why_tests_cant": "Completeness needs an argument about all ways a network can be covered by several others.", "anchors": ["capirca/lib/nacaddr.py:IsSuperNet", "capirca/lib/policy.py:Term.CheckAddressIsContained"]}
{"id": "C11", "title": "Discontiguous summarisation keeps the address set", "statement": "Summarize(nets) returns discontiguous-mask networks such that an address matches one of them (address & mask == network) exactly when it belongs to one of the input IPv4 networks.", "quantifier": "all lists of IPv4 networks and all 2^32 addresses", "why_tests_cant": "The pairing loop iterates rounds until no pairs remain; every list has its own merge history.", "anchors": ["capirca/lib/summarizer.py:Summarize", "capirca/lib/summarizer.py:_SummarizeSameMask"]}
{"id": "C12", "title": "Every summary can be rendered", "statement": "For every list of IPv4 networks, ToDottedQuad succeeds on every network Summarize returns, and the rendered address and mask determine the network back.", "quantifier": "all lists of IPv4 networks", "why_tests_cant": "Whether a merge clears a particular mask bit depends on the whole input list.", "anchors": ["capirca/lib/summarizer.py:ToDottedQuad", "capirca/lib/summarizer.py:Summarize"]}
{"id": "C13", "title": "Collapsing ports keeps the port set and is the smallest list", "statement": "For every list of port ranges (low<=high) CollapsePortList returns a sorted list covering exactly the same ports, and no shorter list of ranges covers them.", "quantifier": "all lists of port ranges", "why_tests_cant": "Adjacency/overlap chains of arbitrary length.", "anchors": ["capirca/lib/policy.py:Term.CollapsePortList"]}
{"id": "C14", "title": "Port containment is sound and, on collapsed lists, complete", "statement": "If the superset list is non-empty, CheckPortIsContained(superset, subset) returns True only if subset is non-empty and every port of subset lies in superset; for supersets whose ranges are separated by gaps it returns True whenever that is so.", "quantifier": "all pairs of port-range lists", "why_tests_cant": "Ranges over all interval families.", "anchors": ["capirca/lib/policy.py:Term.CheckPortIsContained"]}
{"id": "C15", "title": "Shading reports only unreachable terms", "statement": "If a term is reported as contained in a prior term ('term in prior'), then every packet that matches the term also matches the prior term, so that dropping the shaded term changes no verdict.", "quantifier": "all pairs of terms and all packets", "why_tests_cant": "The containment test inspects dozens of fields; tests sample a handful of field combinations.", "anchors": ["capirca/lib/policy.py:Term.__contains__", "capirca/lib/policy.py:Policy._DetectShading"]}
{"id": "C16", "title": "Shading detection inspects every ordered pair", "statement": "With shade checking on, building a policy raises ShadingError exactly when some term is contained in an earlier term whose actions do not include 'next'; the first-match verdict of a list of terms is unchanged by deleting a term that an earlier non-'next' term really covers.", "quantifier": "all term lists and all packets", "why_tests_cant": "Quantifies over all list lengths, positions and packets.", "anchors": ["capirca/lib/policy.py:Policy._DetectShading", "capirca/lib/policy.py:Policy.AddFilter"]}
{"id": "C17", "title": "Shade checking never changes what a term matches", "statement": "Running the shading check (which flattens excludes into the include lists) leaves the set of source, destination and either-direction addresses every term matches unchanged, so the generated output is the same policy with and without shade checking.", "quantifier": "all terms with arbitrary include and exclude lists, all addresses", "why_tests_cant": "The mutation interacts with empty results and un-excluded fields; tests only check non-empty ones.", "anchors": ["capirca/lib/policy.py:Term.FlattenAll", "capirca/lib/policy.py:Term.__contains__"]}
{"id": "C18", "title": "Address/port cleanup never changes what a term matches", "statement": "AddressCleanup, for every setting of optimisation and address-book mode, leaves the sets denoted by all six address lists and all three port lists of a term unchanged.", "quantifier": "all terms, all four modes", "why_tests_cant": "Composition of several normalisations over unbounded lists.", "anchors": ["capirca/lib/policy.py:Term.AddressCleanup"]}
{"id": "C19", "title": "Service names translate to exactly their ports", "statement": "After policy translation a term's port list covers exactly the ports that the named services define for one of the term's protocols; a term naming ports none of which is defined for its protocols is rejected instead of being widened to all ports.", "quantifier": "all definition sets, all service lists, all protocol lists", "why_tests_cant": "Quantifies over every definitions file.", "anchors": ["capirca/lib/policy.py:TranslatePorts", "capirca/lib/policy.py:Policy._TranslateTerms", "capirca/lib/naming.py:Naming.GetServiceByProto"]}
{"id": "C20", "title": "Sanity-checked terms are well formed", "statement": "A term accepted by SanityCheck: has an action-like keyword unless it is verbatim; has ports only together with protocols all of which carry ports; has icmp codes only for a single icmp type that admits them; has only known icmp types; has TTL and traffic class in range; and never mixes ether-type with upper-layer matches. Invalid terms raise a policy error (never an unrelated exception).", "quantifier": "all terms", "why_tests_cant": "Interaction of all checks over all field combinations.", "anchors": ["capirca/lib/policy.py:Term.SanityCheck"]}
{"id": "C21", "title": "Address-family selection partitions a term's addresses", "statement": "GetAddressOfVersion(field, 4) and (field, 6) split every address list into two parts that preserve order, lose nothing and duplicate nothing, and each part has only addresses of its family.", "quantifier": "all terms and fields", "why_tests_cant": "Holds for every list.", "anchors": ["capirca/lib/policy.py:Term.GetAddressOfVersion"]}
{"id": "C22", "title": "Network tokens resolve to exactly their transitive definition", "statement": "On acyclic, fully defined network definitions, GetNet(token) terminates and returns exactly the networks reachable from the token through nested tokens; if some reachable token is undefined it raises UndefinedAddressError. It terminates for every definition set.", "quantifier": "all definition files and all query tokens", "why_tests_cant": "Nesting depth and sharing are unbounded.", "anchors": ["capirca/lib/naming.py:Naming.GetNet"]}
{"id": "C23", "title": "Service tokens resolve to exactly their transitive definition", "statement": "On acyclic, fully defined service definitions, GetService(token) terminates and returns, without duplicates and sorted, exactly the port/protocol leaves reachable from the token; GetServiceByProto(token, proto) returns exactly the ports of the leaves with that protocol. It terminates for every definition set.", "quantifier": "all definition files, tokens and protocols", "why_tests_cant": "Nesting depth and sharing are unbounded.", "anchors": ["capirca/lib/naming.py:Naming.GetService", "capirca/lib/naming.py:Naming.GetServiceByProto"]}
{"id": "C24", "title": "Duplicate definitions are rejected", "statement": "Loading definition lines never silently overwrites or merges an existing token: a second definition of a network (or service) name raises NamespaceCollisionError, and otherwise the first definition's values are kept, in order, together with continuation lines.", "quantifier": "all sequences of definition lines", "why_tests_cant": "Quantifies over all line histories (parser state machine).", "anchors": ["capirca/lib/naming.py:Naming._ParseLine", "capirca/lib/naming.py:Naming.ParseServiceList", "capirca/lib/naming.py:Naming.ParseNetworkList"]}
{"id": "C25", "title": "Undefined nested tokens are detected at load time", "statement": "After a definitions directory has been loaded without error, every token referenced in any definition is itself defined, so that resolving a defined token never fails with an undefined-token error.", "quantifier": "all sequences of definition lines over all files", "why_tests_cant": "Quantifies over all files and their load order.", "anchors": ["capirca/lib/naming.py:Naming._CheckUnseen", "capirca/lib/naming.py:Naming._ParseLine", "capirca/lib/naming.py:Naming._Parse"]}
{"id": "C26", "title": "Reverse lookups agree with forward resolution", "statement": "GetIpParents(ip) returns exactly the network tokens whose resolved address list contains the ip, and GetPortParents(port, proto) exactly the service tokens whose resolution contains that port for that protocol.", "quantifier": "all definition sets, addresses and ports", "why_tests_cant": "Two independently written traversals must agree on every definition graph.", "anchors": ["capirca/lib/naming.py:Naming.GetIpParents", "capirca/lib/naming.py:Naming.GetPortParents", "capirca/lib/naming.py:Naming._GetParents"]}
{"id": "C27", "title": "Port parsing accepts exactly 0..65535", "statement": "Port(x) returns the integer value exactly for decimal values 0..65535 and raises BadPortValue or BadPortRange otherwise; for port/protocol pairs, 'p in range' holds exactly when the protocols are equal and the low/high bounds enclose p.", "quantifier": "all integers and strings, all port/protocol pairs", "why_tests_cant": "Infinite input domain.", "anchors": ["capirca/lib/port.py:Port", "capirca/lib/port.py:PPP"]}
{"id": "C28", "title": "Includes never escape the base directory", "statement": "Whatever #include lines policy files contain, every file opened while reading a policy lies under the policy base directory; otherwise parsing stops with InvalidIncludeDirectoryError before the file is opened.", "quantifier": "all policy texts, all include graphs, all path spellings ('..', '.', absolute, repeated separators)", "why_tests_cant": "Path spellings and include graphs are unbounded.", "anchors": ["capirca/lib/policy.py:_Preprocess", "capirca/lib/policy.py:_SubDirectory"]}
{"id": "C29", "title": "Include expansion terminates within the depth limit", "statement": "Reading a policy terminates for every include graph, including cyclic ones: it either returns the text with every include line replaced by the included file's lines in place, or raises RecursionTooDeepError exactly when some include chain is deeper than the limit.", "quantifier": "all include graphs, all depth limits", "why_tests_cant": "Cyclic and arbitrarily deep graphs.", "anchors": ["capirca/lib/policy.py:_Preprocess"]}
{"id": "C30", "title": "aclcheck follows first-match semantics", "statement": "For each filter aclcheck reports, in order, exactly the terms that could match the queried packet up to and including the first term that definitely matches with a terminating action; no term after it is reported.", "quantifier": "all policies and all queries", "why_tests_cant": "All term lists, positions and 'next' combinations.", "anchors": ["capirca/lib/aclcheck.py:AclCheck"]}
{"id": "C31", "title": "aclcheck reports only real matches", "statement": "If aclcheck reports an exact match of an address query with a term, the queried source and destination really belong to the term's matched addresses (include minus exclude).", "quantifier": "all terms and queries", "why_tests_cant": "All combinations of includes/excludes.", "anchors": ["capirca/lib/aclcheck.py:AclCheck._AddrInside"]}
{"id": "C32", "title": "High-port fixing only adds the ephemeral range", "statement": "FixHighPorts leaves a term without 'established' unchanged; with it, a tcp/udp term without source of widening gets a destination-port set equal to the old set plus 1024-65535; any other protocol set raises EstablishedError unless the platform is stateful; the input term is never modified.", "quantifier": "all terms, all option lists, all port lists", "why_tests_cant": "All field combinations.", "anchors": ["capirca/lib/aclgenerator.py:ACLGenerator.FixHighPorts"]}
{"id": "C33", "title": "Fixed term names respect the platform limit", "statement": "FixTermLength(name, abbreviate, truncate) either returns a name not longer than the platform limit or raises TermNameTooLongError; names that already fit are returned unchanged.", "quantifier": "all names, limits, flags and abbreviation tables", "why_tests_cant": "Unbounded strings; substitution order matters.", "anchors": ["capirca/lib/aclgenerator.py:ACLGenerator.FixTermLength"]}
{"id": "C34", "title": "icmp types translate exactly for the address family", "statement": "NormalizeIcmpTypes(types, protocols, af) returns sorted numeric types that are exactly the numbers of the named types of that family, or raises when protocol, family or type do not fit; it never returns an empty or widened list for a non-empty request.", "quantifier": "all lists of icmp type names, protocols and families", "why_tests_cant": "Product of three domains with error cases.", "anchors": ["capirca/lib/aclgenerator.py:Term.NormalizeIcmpTypes"]}
{"id": "C35", "title": "Unsupported keywords are never silently dropped", "statement": "Constructing a generator for a policy raises UnsupportedFilterError whenever a term rendered for that platform uses a keyword or sub-keyword outside the generator's supported set.", "quantifier": "all policies, all terms, all supported-token tables", "why_tests_cant": "Quantifies over all keyword subsets.", "anchors": ["capirca/lib/aclgenerator.py:ACLGenerator.__init__"]}
{"id": "C36", "title": "An output file is rewritten only if its content really changed", "statement": "aclgen rewrites an existing output exactly when old and new content differ after ignoring lines with $Id:, $Date: or $Revision: tags; running aclgen twice on unchanged inputs rewrites nothing the second time.", "quantifier": "all old/new file contents (text and binary outputs)", "why_tests_cant": "All file contents.", "anchors": ["capirca/aclgen.py:FilesUpdated", "capirca/aclgen.py:WriteFiles"]}
{"id": "C37", "title": "A failing sequential run writes nothing", "statement": "In sequential mode, if any policy fails to parse or generate, aclgen raises before any output file is written; in every mode the set of files written is decided only after all policies were processed.", "quantifier": "all sets of policies and all failure points", "why_tests_cant": "Every failure point in every schedule.", "anchors": ["capirca/aclgen.py:Run", "capirca/aclgen.py:RenderFile"]}
{"id": "C38", "title": "Parallel and sequential runs produce the same files", "statement": "If no policy fails, the final disk contents after a run do not depend on the number of worker processes or on the order in which they finish, provided no two outputs share a path.", "quantifier": "all schedules of worker completion, all policy sets", "why_tests_cant": "Schedules are exponential in the number of policies.", "anchors": ["capirca/aclgen.py:Run", "capirca/aclgen.py:WriteFiles"]}
{"id": "C39", "title": "Cisco extended term lines match exactly the term's packets", "statement": "For every packet of the rendered address family, some permit/deny line rendered for a term matches the packet exactly when the packet satisfies the term's source, destination, protocol, port, and icmp conditions (include minus exclude).", "quantifier": "all terms over the modelled keywords and all packets", "why_tests_cant": "The rendering is a cartesian product over seven lists.", "anchors": ["capirca/lib/cisco.py:Term.__str__"]}
{"id": "C40", "title": "Cisco terms are never widened when their addresses vanish", "statement": "If a term names source (or destination) addresses but none remains for the rendered family after exclusion, no line is rendered for it (it does not turn into 'any').", "quantifier": "all terms, both families", "why_tests_cant": "All include/exclude combinations.", "anchors": ["capirca/lib/cisco.py:Term.__str__", "capirca/lib/cisco.py:ObjectGroupTerm"]}
{"id": "C41", "title": "Cisco object groups contain the addresses of every term that references them", "statement": "In object-group mode every group referenced by a rendered term line is defined exactly once and contains exactly the addresses of that term's list.", "quantifier": "all policies rendered with object-group", "why_tests_cant": "Group names are shared between terms; all token combinations matter.", "anchors": ["capirca/lib/cisco.py:ObjectGroup"]}
{"id": "C42", "title": "Cisco consecutive-port compaction keeps the port set", "statement": "The port list produced when consecutive ports are merged covers exactly the same ports as before.", "quantifier": "all sorted port lists", "why_tests_cant": "Chains of arbitrary length.", "anchors": ["capirca/lib/cisco.py:Term._FixConsecutivePorts"]}
{"id": "C43", "title": "Juniper prefix minimisation preserves the match", "statement": "Under Junos semantics (most specific prefix decides, 'except' wins ties, unlisted addresses do not match), the include/except lists after minimisation match exactly the same addresses as before.", "quantifier": "all include/exclude lists and all addresses", "why_tests_cant": "All prefix nestings.", "anchors": ["capirca/lib/juniper.py:Term._MinimizePrefixes"]}
{"id": "C44", "title": "Juniper source/destination matching is include minus exclude", "statement": "A rendered Juniper term matches a source address exactly when the address is in the term's source list and not in its source-exclude list (no source list meaning any address).", "quantifier": "all terms, both families, all addresses", "why_tests_cant": "All include/exclude combinations, including exclude-only terms.", "anchors": ["capirca/lib/juniper.py:Term.__str__"]}
{"id": "C45", "title": "Juniper output is balanced and correctly indented", "statement": "The configuration builder either raises JuniperIndentationError or yields text whose open and close braces match; the indentation of every line equals the initial indent plus the nesting depth times the tab stop.", "quantifier": "all sequences of appended lines", "why_tests_cant": "All sequences of lines.", "anchors": ["capirca/lib/juniper.py:Config"]}
{"id": "C46", "title": "iptables address calculation is include minus exclude", "statement": "The address pairs and bail-out rules rendered for an iptables term accept a (source, destination) pair exactly when the source is in the source list and not excluded and the destination is in the destination list and not excluded, whichever of the internal encodings (split, bail-out, inverted) is chosen.", "quantifier": "all include/exclude lists and all address pairs", "why_tests_cant": "The encoding switches at size thresholds that tests rarely cross.", "anchors": ["capirca/lib/iptables.py:Term._CalculateAddresses"]}
{"id": "C47", "title": "iptables multiport chunks cover the ports within the kernel limit", "statement": "The port statements generated for a term together match exactly the given ports, and every multiport statement counts at most 15 ports (a range counting as two).", "quantifier": "all port lists", "why_tests_cant": "All list lengths and range placements.", "anchors": ["capirca/lib/iptables.py:Term._GeneratePortStatement"]}
{"id": "C48", "title": "ipset sets hold exactly the term's addresses", "statement": "For the ipset platform every rendered address match (direct or by set) denotes exactly include minus exclude of the family, set names never exceed 31 characters and two different terms never share a set name.", "quantifier": "all terms and filters", "why_tests_cant": "Name truncation collisions and all address combinations.", "anchors": ["capirca/lib/ipset.py:Term._CalculateAddrList", "capirca/lib/ipset.py:Term._GenerateSetName"]}
{"id": "C49", "title": "pcap filters test source addresses against the packet source", "statement": "The pcap expression for a term matches a packet exactly when the packet's source is in the source list minus source excludes and its destination in the destination list minus destination excludes.", "quantifier": "all terms and packets", "why_tests_cant": "All include/exclude combinations and packets.", "anchors": ["capirca/lib/pcap.py:Term._GenerateAddrStatement"]}
{"id": "C50", "title": "pcap policy expression matches exactly the accepted packets", "statement": "The expression rendered for a policy matches exactly the packets whose first matching term accepts (or, inverted, denies).", "quantifier": "all policies and packets", "why_tests_cant": "All term lists.", "anchors": ["capirca/lib/pcap.py:PcapFilter.__str__"]}
{"id": "C51", "title": "Collapsing never loses a comment", "statement": "For every network given to CollapseAddrList, some returned network contains it and carries a comment that contains the input network's comment (so the generated configuration still shows where each prefix came from).", "quantifier": "all network lists with arbitrary comments, all complement lists", "why_tests_cant": "Comments are concatenated along arbitrarily long merge chains, with a substring test that may drop text.", "anchors": ["capirca/lib/nacaddr.py:CollapseAddrList", "capirca/lib/nacaddr.py:IPv4.AddComment", "capirca/lib/nacaddr.py:IPv4.supernet"]}
{"id": "C52", "title": "Tokens and service names of a policy term mean what the definitions say", "statement": "A term that is parsed and translated with a set of definitions matches exactly the packets its text describes: source, destination and either-direction addresses in the networks its tokens resolve to, without the networks of the excluded tokens, and ports its services define for its protocols; a listed restriction is never dropped.", "quantifier": "all definition sets, all policies, all packets", "why_tests_cant": "Composes name resolution, port translation, address collapsing and sanity checks over arbitrary definitions and packets.", "anchors": ["capirca/lib/policy.py:Policy._TranslateTerms", "capirca/lib/policy.py:Term.AddObject", "capirca/lib/policy.py:Policy.AddFilter", "capirca/lib/naming.py:Naming.GetNet"]}
{"id": "C53", "title": "ActionMatch selects by action", "statement": "AclCheck.ActionMatch(action) returns, in order, exactly the certain matches whose action is the given one ('any' returns all certain matches).", "quantifier": "all match lists and all action texts", "why_tests_cant": "All combinations of actions, including actions whose names contain each other.", "anchors": ["capirca/lib/aclcheck.py:AclCheck.ActionMatch"]}
{"id": "C54", "title": "Quoted comments cannot break out of their quotes", "statement": "TruncateWords returns a double-quoted text of at most min(limit,126) characters whose inside has no line break and no double quote, for a list of texts and for a single text.", "quantifier": "all texts, all lists of texts, all limits", "why_tests_cant": "All texts.", "anchors": ["capirca/lib/aclgenerator.py:TruncateWords"]}
{"id": "C55", "title": "Generator terms accept exactly the known protocols", "statement": "Constructing a generator term succeeds exactly if every protocol is a known protocol name or its number, changes no protocol except ipip (to 4), and can be repeated on the same policy term without further change.", "quantifier": "all protocol lists", "why_tests_cant": "All protocol lists; the same term object is shared by several generators.", "anchors": ["capirca/lib/aclgenerator.py:Term.__init__", "capirca/lib/aclgenerator.py:ProtocolNameToNumber"]}
{"id": "C56", "title": "An interrupted run is repaired by the next one", "statement": "If aclgen is killed at any point while writing its outputs (leaving some written, one cut short, the rest old), the next run on the same inputs leaves every output with exactly the new content and touches no other file.", "quantifier": "all crash points, all write orders, all file contents", "why_tests_cant": "Every crash point and every cut of every file.", "anchors": ["capirca/aclgen.py:WriteFiles", "capirca/aclgen.py:_WriteFile", "capirca/aclgen.py:FilesUpdated"]}
{"id": "C57", "title": "Different outputs never share a file", "statement": "For every two different pairs of policy file and platform, aclgen writes to different output paths.", "quantifier": "all policy file names below the base directory, all pairs of platforms", "why_tests_cant": "All file names.", "anchors": ["capirca/aclgen.py:RenderFile", "capirca/aclgen.py:RenderACL"]}
{"id": "C58", "title": "No target of a policy is silently skipped", "statement": "If aclgen ends with success then every policy has an up-to-date output for every platform named in its headers.", "quantifier": "all policies, all platforms that have a generator", "why_tests_cant": "All policies and histories of the output directory.", "anchors": ["capirca/aclgen.py:RenderFile", "capirca/aclgen.py:Run"]}
{"id": "C59", "title": "Command line flags override configuration files", "statement": "The effective value of an option is the one given on the command line, else the one of the last configuration file that sets it, else the default.", "quantifier": "all flag values and configuration files", "why_tests_cant": "All combinations of sources.", "anchors": ["capirca/utils/config.py:generate_configs", "capirca/utils/config.py:merge_files"]}
{"id": "C60", "title": "A Cisco filter decides every packet like its policy", "statement": "For every packet of the rendered address family, the first line of the generated extended or IPv6 access list that matches the packet permits it exactly when the first term of the filter that applies to the packet accepts it; expired terms, terms of the other family and terms for other platforms do not take part.", "quantifier": "all filters over the modelled keywords, all four Cisco-style platforms, all packets", "why_tests_cant": "First-match order over all combinations of terms and packets.", "anchors": ["capirca/lib/cisco.py:Cisco._TranslatePolicy", "capirca/lib/cisco.py:Term.__str__"]}
{"id": "C61", "title": "Removing duplicate object groups keeps the meaning", "statement": "With the option remove_duplicate_network_objectgroups every access list entry refers to the same addresses as without it, and no two groups of a family have the same content.", "quantifier": "all configurations, all platforms with object groups", "why_tests_cant": "All combinations of groups and references.", "anchors": ["capirca/lib/cisco.py:Cisco._remove_duplicate_objects"]}
{"id": "C62", "title": "Platform restrictions of terms are honoured in every Cisco filter type", "statement": "A term is rendered for a Cisco-style platform only if its platform list is empty or names the platform and its exclusion list does not.", "quantifier": "all terms, all filter types, all four Cisco-style platforms", "why_tests_cant": "All combinations of filter type, platform and restriction.", "anchors": ["capirca/lib/cisco.py:ObjectGroupTerm.__str__", "capirca/lib/cisco.py:TermStandard.__str__", "capirca/lib/cisco.py:Term.__str__", "capirca/lib/cisco.py:Cisco._GetObjectGroupTerm"]}
{"id": "C63", "title": "Cisco standard lists match exactly the addresses of the term", "statement": "A term of a standard access list matches a packet, with the action of the term, exactly when the packet's source is one of the IPv4 addresses of the term or the term has no address.", "quantifier": "all terms, numbered and named lists, all platforms, all addresses", "why_tests_cant": "All addresses and address lists.", "anchors": ["capirca/lib/cisco.py:TermStandard.__str__"]}
{"id": "C64", "title": "Cisco object-group lists match exactly the packets of their terms", "statement": "Given the object groups printed with it, an object-group list has an entry that matches a packet exactly when the packet satisfies the conditions of one of the terms, with the action of that term.", "quantifier": "all policies rendered with object-group, all packets", "why_tests_cant": "Groups are shared between terms; all packets.", "anchors": ["capirca/lib/cisco.py:ObjectGroupTerm.__str__", "capirca/lib/cisco.py:ObjectGroup.__str__"]}
{"id": "C65", "title": "A Juniper term acts on exactly the packets its policy term asks for", "statement": "For every term accepted by the tool and every packet of the filter's family, the printed term is active, matches the packet and has a given verdict exactly if the term is live (not expired, not inactive, of the platform), asks for the packet (with the high ports added for 'established') and its action means that verdict.", "quantifier": "every term, filter type (inet, inet6), every packet of the family", "why_tests_cant": "the number of combinations of match conditions, options and actions is unbounded; unit tests compare texts of a few terms", "anchors": ["capirca/lib/juniper.py:Term.__init__", "capirca/lib/juniper.py:Term.__str__", "capirca/lib/juniper.py:Juniper._TranslatePolicy"]}
{"id": "C66", "title": "A Juniper filter decides about every packet like the policy", "statement": "For every list of terms that renders, the first printed term that matches a packet and does not pass it on accepts (drops) it exactly if the first live policy term that matches and is not 'next' accepts (denies, rejects) it.", "quantifier": "every list of terms of a filter with one family, every packet of the family", "why_tests_cant": "order of terms, skipped terms and the renaming of terms interact for policies of any length", "anchors": ["capirca/lib/juniper.py:Juniper._TranslatePolicy", "capirca/lib/juniper.py:Juniper.__str__"]}
{"id": "C67", "title": "The two filters printed for a mixed Juniper filter both decide like the policy", "statement": "For every list of terms rendered as a mixed filter, the inet filter decides about IPv4 packets and the inet6 filter about IPv6 packets like the policy, although both are printed from the same term objects.", "quantifier": "every list of terms of a mixed filter, every packet", "why_tests_cant": "the two printings share mutable term objects; errors only show for particular combinations of protocols and families", "anchors": ["capirca/lib/juniper.py:Juniper._TranslatePolicy", "capirca/lib/juniper.py:Term.__str__"]}
{"id": "C68", "title": "Printing a Juniper filter again gives the same text", "statement": "For every term object, converting it to text a second time gives the text of the first time.", "quantifier": "every term and filter type", "why_tests_cant": "printing changes the term objects; whether this shows depends on the combination of protocols, options and types", "anchors": ["capirca/lib/juniper.py:Term.__str__"]}
{"id": "C69", "title": "An iptables term acts on exactly the packets it matches", "statement": "For every term rendered by iptables or speedway, the chain of the term gives the verdict of the term's action to exactly the packets the term matches, returns for all others, exists, and is jumped to exactly once from the filter.", "quantifier": "every term, address family, tracking mode and packet", "why_tests_cant": "the rules are products of addresses, ports, protocols, types and flags, with lists handed on and changed between the rules", "anchors": ["capirca/lib/iptables.py:Term.__str__", "capirca/lib/iptables.py:Term._FormatPart"]}
{"id": "C70", "title": "An iptables rule set decides like the policy", "statement": "For every policy rendered for iptables or speedway, a packet that enters the chain of a filter gets the verdict of the first live term of the filter that matches it and does not pass it on, and falls through if there is none.", "quantifier": "every list of filters and terms, every packet", "why_tests_cant": "depends on the chains of all terms and filters together and on the order of terms", "anchors": ["capirca/lib/iptables.py:Iptables._TranslatePolicy", "capirca/lib/iptables.py:Iptables.__str__"]}
{"id": "C71", "title": "The options of an iptables filter apply to that filter only", "statement": "The default policy of a chain and whether connections are tracked follow from the options of its own filter, whatever filters come before it.", "quantifier": "every list of filters with their options", "why_tests_cant": "the state carried between filters only shows for particular sequences of filters", "anchors": ["capirca/lib/iptables.py:Iptables._TranslatePolicy"]}
{"id": "C72", "title": "A Cloud Armor policy decides like its terms", "statement": "For every policy rendered for Cloud Armor, a packet of the filter's family gets the action of the first term that is meant for the platform and matches it: of the rules that match, the one with the lowest priority number has that action.", "quantifier": "every filter and list of terms the tool accepts, every packet", "why_tests_cant": "the addresses of a term are split over several rules, and families and platforms combine freely with them", "anchors": ["capirca/lib/cloudarmor.py:Term.ConvertToDict", "capirca/lib/cloudarmor.py:CloudArmor._TranslatePolicy"]}
{"id": "C73", "title": "Generated Cloud Armor policies respect the limits of the service", "statement": "Every generated policy has at most 200 rules, each rule has between one and five source ranges and a description of at most 64 characters; otherwise generation fails.", "quantifier": "every list of filters and terms, with any comments and numbers of addresses", "why_tests_cant": "the limits depend on the number of addresses and the lengths of comments together with the numbering suffix", "anchors": ["capirca/lib/cloudarmor.py:Term.ConvertToDict", "capirca/lib/cloudarmor.py:CloudArmor._TranslatePolicy"]}
{"id": "C74", "title": "Cloud Armor priorities are unique and follow the order of the policy", "statement": "The rules of a generated policy carry the priorities 1, 2, 3 and so on, in the order of the filters and terms.", "quantifier": "every list of filters and terms", "why_tests_cant": "priorities are counters that depend on everything rendered before", "anchors": ["capirca/lib/cloudarmor.py:CloudArmor._TranslatePolicy"]}
{"id": "C75", "title": "An OpenConfig ACL set decides like the policy", "statement": "For every policy rendered for OpenConfig, the output has for each filter one set per family its header names, and each set decides about the packets of its family like the first live term of the filter that matches: of the entries that match, the one with the lowest sequence number has that action.", "quantifier": "every list of filters and terms the tool accepts, every packet, every order in which a set of names may be run through", "why_tests_cant": "terms are multiplied out over five nested loops that share one dictionary, terms are changed by rendering the first family, and the family may depend on the hash seed", "anchors": ["capirca/lib/openconfig.py:Term.ConvertToDict", "capirca/lib/openconfig.py:OpenConfig._TranslatePolicy", "capirca/lib/policy.py:Term.FlattenAll"]}
{"id": "C76", "title": "OpenConfig sequence numbers are unique and follow the order of the policy", "statement": "The entries of all sets of the output carry the sequence numbers 1, 2, 3 and so on, in the order of the filters, families and terms.", "quantifier": "every list of filters and terms", "why_tests_cant": "the numbers are a counter that depends on everything rendered before", "anchors": ["capirca/lib/openconfig.py:OpenConfig._TranslatePolicy"]}
{"id": "C77", "title": "The SONiC rules decide like the policy", "statement": "For every policy rendered for SONiC, the rules under ACL_RULE decide about every packet of a family named in the header like the first live term of the filter that matches: of the rules that match, the one with the highest priority has that action.", "quantifier": "every list of filters and terms the tool accepts, every packet, every order in which a set of families may be run through", "why_tests_cant": "terms are multiplied out over six nested loops that share one dictionary whose keys are not reset, for two families in an order that depends on the hash seed", "anchors": ["capirca/lib/sonic.py:Term.ConvertToDict", "capirca/lib/sonic.py:Sonic._TranslatePolicy"]}
{"id": "C78", "title": "SONiC priorities fall and rule names are unique", "statement": "The priorities of the rules of the output fall strictly in the order of the policy and are never negative, and no two rules have the same name, so that none overwrites another.", "quantifier": "every list of filters and terms", "why_tests_cant": "the priorities are a counter that depends on everything rendered before, and names are made of arbitrary filter names and numbers", "anchors": ["capirca/lib/sonic.py:Sonic._TranslatePolicy"]}
{"id": "C79", "title": "The GCE firewall decides like the policy", "statement": "For every policy rendered for GCE, the rules of the output decide about the flows of the direction, network and family of a filter's header like the first live term of the filter that matches: of the rules that match, one with the lowest priority number has that action, a deny going before an accept of the same priority.", "quantifier": "every list of filters and terms the tool accepts, every flow, every order in which a set of families may be run through", "why_tests_cant": "rules carry priorities of their own instead of an order, terms are split over rules of limited size and over families, terms are changed by rendering the first family, and other filters add rules to the same network", "anchors": ["capirca/lib/gce.py:Term.ConvertToDict", "capirca/lib/gce.py:GCE._TranslatePolicy", "capirca/lib/gce.py:IsDefaultDeny", "capirca/lib/gcp.py:FilterIPv4InIPv6FormatAddrs"]}
{"id": "C80", "title": "Every GCE rule is within the sizes the firewall takes, and a stated quota is kept", "statement": "Every rule of the output has at most 63 characters in its name, 2047 in its description, 256 source ranges, 256 destination ranges, 30 source tags, 70 target tags, 10 service accounts on each side and 256 ports per protocol, and if the first header states a number, the attributes of all rules together are not more than that.", "quantifier": "every list of filters and terms", "why_tests_cant": "the sizes grow with the addresses, and the quota is a sum over all filters", "anchors": ["capirca/lib/gce.py:Term.ConvertToDict", "capirca/lib/gce.py:GetAttributeCount", "capirca/lib/gcp.py:TruncateString"]}
{"id": "C81", "title": "GCE rule names are unique", "statement": "No two rules of the output have the same name, so that none replaces another when the rules are pushed, and every name is made of the network and the name of a term.", "quantifier": "every list of filters and terms", "why_tests_cant": "names are joined of networks, term names, numbers and marks for direction and family, any of which a user may choose to collide", "anchors": ["capirca/lib/gce.py:Term.ConvertToDict", "capirca/lib/gce.py:GCE._TranslatePolicy", "capirca/lib/gcp.py:GetIpv6TermName"]}
{"id": "C82", "title": "The description of a GCE rule tells of its own term", "statement": "The description of each rule consists of the comment of the term it came from, or of the header if it has none, followed by the owner of that term, cut to the size the firewall takes.", "quantifier": "every list of filters and terms", "why_tests_cant": "comments are lists shared between terms and changed in place, so that what is printed depends on what was rendered before", "anchors": ["capirca/lib/gce.py:Term.ConvertToDict", "capirca/lib/gce.py:GCE._TranslatePolicy"]}
{"id": "C83", "title": "The Kubernetes policies let pass what the policy accepts", "statement": "For every policy rendered for Kubernetes, after all objects of the output have been applied the cluster lets a flow of the direction of a filter pass exactly if the first live term of the filter that matches it accepts.", "quantifier": "every list of filters and terms the tool accepts, every flow", "why_tests_cant": "the cluster has no order among objects and denies only where some object selects a direction, so that the claim depends on all terms together and on the names of the objects of other filters", "anchors": ["capirca/lib/k8s.py:Term.ConvertToDict", "capirca/lib/k8s.py:K8s._TranslatePolicy", "capirca/lib/k8s.py:IsDefaultDeny"]}
{"id": "C84", "title": "The cluster takes every Kubernetes object of the output", "statement": "Every object of the output has a DNS name of at most 253 characters, a direction, blocks whose exceptions are properly inside the block, and port selectors with a protocol the cluster knows and ports between 1 and 65535 in order.", "quantifier": "every list of filters and terms the tool accepts", "why_tests_cant": "the checks of the tool and the rules of the cluster are different languages of names, addresses, ports and protocols", "anchors": ["capirca/lib/k8s.py:Term.ConvertToDict", "capirca/lib/k8s.py:Term._TERM_NAME_RE", "capirca/lib/k8s.py:Term._PROTO_MAP"]}
{"id": "C85", "title": "Kubernetes object names are unique", "statement": "No two objects of the output have the same name, so that none replaces another when they are applied.", "quantifier": "every list of filters and terms", "why_tests_cant": "names are term names with a mark for the direction, which a user may choose to collide, in any number of filters", "anchors": ["capirca/lib/k8s.py:K8s._TranslatePolicy"]}
{"id": "C86", "title": "A Kubernetes object bears the name, the comment and the owner of its own term", "statement": "Every object of the output comes from a live term of a filter of its direction, has the name of that term with a mark for egress, the owner of that term, and the comment of that term, or of the header if it has none.", "quantifier": "every list of filters and terms", "why_tests_cant": "comments and owners are assigned to shared term objects while all filters are run through", "anchors": ["capirca/lib/k8s.py:Term.ConvertToDict", "capirca/lib/k8s.py:K8s._TranslatePolicy"]}
{"id": "C87", "title": "nftables lets pass what the filters let pass", "statement": "A packet that opens a connection, run through the base chains of a hook of the generated rule set, is accepted if and only if every filter for that hook and the family of the packet accepts it by the first of its terms that matches or by its default.", "quantifier": "every list of filters and terms the tool accepts, every hook and every packet", "why_tests_cant": "tables, base chains, chains for terms, statements and sets of addresses are put together for any number of filters, terms, protocols, ports and addresses", "anchors": ["capirca/lib/nftables.py:Term.RulesetGenerator", "capirca/lib/nftables.py:Term.PortsAndProtocols", "capirca/lib/nftables.py:Term.GroupExpressions", "capirca/lib/nftables.py:Nftables._TranslatePolicy", "capirca/lib/nftables.py:Nftables.__str__"]}
{"id": "C88", "title": "nftables filters keep state", "statement": "Packets of established and related connections pass every hook; packets that neither open a connection nor belong to one are accepted by no chain.", "quantifier": "every list of filters and terms and every packet and connection state", "why_tests_cant": "the guarantee is about every chain of every rule set and every packet", "anchors": ["capirca/lib/nftables.py:Term._OptionsHandler", "capirca/lib/nftables.py:Nftables.__str__"]}
{"id": "C89", "title": "nftables chains are there once and jumps lead to them", "statement": "In every table of the output no two chains have the same name, and every jump leads to a chain of the table that holds only rules.", "quantifier": "every list of filters and terms", "why_tests_cant": "names of base chains are made of words of headers and numbers, names of other chains are names of terms, in any number of filters", "anchors": ["capirca/lib/nftables.py:Nftables._TranslatePolicy", "capirca/lib/nftables.py:Nftables._ConfigurationDictionary", "capirca/lib/nftables.py:Nftables.__str__"]}
{"id": "C90", "title": "Comments do not break the nftables rule set", "statement": "Whatever the comments of headers and terms are, those in the output are quoted texts of at most 128 characters without quotes or line ends inside, and remarks stay on one line.", "quantifier": "every list of filters and terms, every comment", "why_tests_cant": "comments are arbitrary texts", "anchors": ["capirca/lib/nftables.py:Term.RulesetGenerator", "capirca/lib/nftables.py:Nftables.__str__", "capirca/lib/aclgenerator.py:TruncateWords"]}
{"id": "C91", "title": "An nftables rule logs, counts and acts as its own term says", "statement": "Every rule of a chain comes from a live term with the name of the chain; it logs with this name exactly if the term logs and does not disable it, counts exactly if the term counts, and has the verdict for the first action of the term.", "quantifier": "every list of filters and terms", "why_tests_cant": "options are put together for all combinations of keywords, families and statements of any number of terms", "anchors": ["capirca/lib/nftables.py:Term._OptionsHandler", "capirca/lib/nftables.py:Term.RulesetGenerator"]}
{"id": "C92", "title": "A pf rule set does what the filters say", "statement": "A packet run through the generated rule set is blocked or passed as the first term says that matches it and is for its family and direction, over all filters in order; a packet no term decides about passes.", "quantifier": "every list of filters and terms the tool accepts, every packet and direction", "why_tests_cant": "rules refer to tables that collect the addresses of all terms; families, flags, state, ports and interfaces combine without bound", "anchors": ["capirca/lib/packetfilter.py:Term.__str__", "capirca/lib/packetfilter.py:Term._GenerateAddrStatement", "capirca/lib/packetfilter.py:Term._GenerateProtoStatement", "capirca/lib/packetfilter.py:PacketFilter._TranslatePolicy", "capirca/lib/packetfilter.py:PacketFilter.__str__"]}
{"id": "C93", "title": "pf tables are defined once, completely, and before use", "statement": "Every table a rule refers to is defined exactly once, under a name of at most 31 characters, and holds exactly the addresses that the policy uses under the token it is named after; no two tokens share a table.", "quantifier": "every list of filters and terms", "why_tests_cant": "tables collect addresses of any number of terms and names are cut", "anchors": ["capirca/lib/packetfilter.py:PacketFilter._TranslatePolicy", "capirca/lib/packetfilter.py:PacketFilter.__str__"]}
{"id": "C94", "title": "pf rules keep state unless their filter says otherwise", "statement": "A rule that lets pass keeps state if its filter does not say nostate, and keeps none if it does; rules that block say nothing about state.", "quantifier": "every list of filters and terms", "why_tests_cant": "the default is a variable that lives through all filters", "anchors": ["capirca/lib/packetfilter.py:PacketFilter._TranslatePolicy", "capirca/lib/packetfilter.py:Term.__str__"]}
{"id": "C95", "title": "A pf rule acts and logs as its own term says", "statement": "Every rule comes from a live term, acts at once as the action of the term says (a term with next does not decide), and logs exactly if the term logs and does not disable it; no two terms of a filter have the same name.", "quantifier": "every list of filters and terms", "why_tests_cant": "all combinations of keywords, families and filters are concerned", "anchors": ["capirca/lib/packetfilter.py:Term.__str__", "capirca/lib/packetfilter.py:Term._FormatPart"]}
{"id": "C96", "title": "An SRX firewall does what the filters say", "statement": "A packet that opens a session between two zones is permitted, denied or rejected as the first term says that matches it and is for its family, over the filters for its zones in order and then the global ones; a packet no term decides about is denied.", "quantifier": "every list of filters and terms the tool accepts, every packet and pair of zones", "why_tests_cant": "policies refer to address sets that collect the addresses of all terms under a token, and to applications shared between terms; families, exclusions, zones and address book types combine without bound", "anchors": ["capirca/lib/junipersrx.py:JuniperSRX._TranslatePolicy", "capirca/lib/junipersrx.py:JuniperSRX._GenerateAddressBook", "capirca/lib/junipersrx.py:JuniperSRX._GenerateApplications", "capirca/lib/junipersrx.py:Term.__str__"]}
{"id": "C97", "title": "SRX address books are complete and consistent", "statement": "Every address set a policy refers to is defined in the book the device looks it up in; names in a book are distinct, every set has members, each member is an address of the same book, and there is one global book or one per zone.", "quantifier": "every list of filters and terms", "why_tests_cant": "books collect addresses of any number of terms, filters and zones", "anchors": ["capirca/lib/junipersrx.py:JuniperSRX._BuildAddressBook", "capirca/lib/junipersrx.py:JuniperSRX._GenerateAddressBook", "capirca/lib/junipersrx.py:JuniperSRX._SortAddressBookNumCheck"]}
{"id": "C98", "title": "SRX applications mean the protocols, ports and ICMP types of their terms", "statement": "Every application a policy refers to is defined, names of applications and sets are distinct, sets are not empty and have defined members, and the application matches exactly the packets with the protocols, ports and ICMP types of the term; policies of one block have distinct names.", "quantifier": "every list of filters and terms, every packet", "why_tests_cant": "applications are shared between terms of any number of filters, and split by port product and by more than eight ICMP types", "anchors": ["capirca/lib/junipersrx.py:JuniperSRX._GenerateApplications", "capirca/lib/junipersrx.py:JuniperSRX._BuildPort", "capirca/lib/junipersrx.py:JuniperSRX._TranslatePolicy"]}
{"id": "C99", "title": "Blocks of an SRX configuration are closed", "statement": "In the configuration every block that is opened is closed, and nothing is closed that was not opened.", "quantifier": "every list of filters and terms the tool accepts", "why_tests_cant": "the output is put together from parts for any number of terms, addresses and applications", "anchors": ["capirca/lib/junipersrx.py:JuniperSRX.__str__", "capirca/lib/junipersrx.py:Term.__str__", "capirca/lib/junipersrx.py:JuniperSRX._GenerateApplications"]}
{"id": "C100", "title": "Splitting large SRX terms keeps what they decide and the limit", "statement": "Terms with too many addresses are split into terms that together decide the same for all packets and with at most 1023 units of addresses each; parts of different terms do not share tokens.", "quantifier": "every list of terms, every packet", "why_tests_cant": "address lists have any length and mix of families", "anchors": ["capirca/lib/junipersrx.py:JuniperSRX._FixLargePolices"]}
{"id": "C101", "title": "An SRX policy acts, counts, marks and logs as its own term says", "statement": "Every policy comes from a live term of a filter for its zones; it counts exactly if the term counts, sets the DSCP and uses the tunnel of the term, and logs permitted sessions when they end and others when they begin exactly if the term logs and does not disable it.", "quantifier": "every list of filters and terms", "why_tests_cant": "all combinations of keywords, options and filters are concerned", "anchors": ["capirca/lib/junipersrx.py:Term.__str__", "capirca/lib/junipersrx.py:JuniperSRX._TranslatePolicy"]}
{"id": "C102", "title": "Layout of a policy text makes no difference", "statement": "Two policy texts (after include expansion) made of the same words, numbers, quoted texts and signs in the same order give the same policy or the same error, whatever blanks, tabs, line breaks and # comments stand between them.", "quantifier": "every pair of texts that spell the same tokens, every set of definitions", "why_tests_cant": "spacing and comments can be anything anywhere; the lexer's regular expressions overlap and depend on what follows", "anchors": ["capirca/lib/policy.py:t_ANY", "capirca/lib/policy.py:t_STRING", "capirca/lib/policy.py:ParsePolicy"]}
{"id": "C103", "title": "Exactly the texts of the grammar are policies", "statement": "A token sequence is accepted exactly if it is a sequence of headers, each followed by terms, made of keyword :: value items with values of the keyword's kind; it then gives these filters and no others; anything else raises ParseError.", "quantifier": "every token sequence", "why_tests_cant": "the grammar is recursive and has about a hundred productions with ambiguous and empty ones", "anchors": ["capirca/lib/policy.py:p_target", "capirca/lib/policy.py:p_term_spec", "capirca/lib/policy.py:p_header_spec"]}
{"id": "C104", "title": "A term holds all its items say, in any order of keywords", "statement": "Every list attribute of a term holds what all the items of its keyword give, in order, every other attribute what its item gives; the order in which different keywords are written does not change the policy; no item is forgotten.", "quantifier": "every text, every term with any number of items", "why_tests_cant": "items come in every combination, order and repetition", "anchors": ["capirca/lib/policy.py:Term.AddObject", "capirca/lib/policy.py:p_term_spec", "capirca/lib/policy.py:Header.AddObject"]}
{"id": "C105", "title": "Nothing of a policy text is silently dropped", "statement": "Every character of a text that is accepted as a policy is part of a token of that policy, a blank or a comment.", "quantifier": "every text", "why_tests_cant": "any character can stand anywhere", "anchors": ["capirca/lib/policy.py:t_error", "capirca/lib/policy.py:ParsePolicy"]}
{"id": "C106", "title": "Verbatim text is reproduced", "statement": "A text written after verbatim:: in quotes, with its own quotes escaped by backslashes, is the text that the term holds for the platform.", "quantifier": "every text", "why_tests_cant": "texts are arbitrary strings, with quotes and backslashes anywhere", "anchors": ["capirca/lib/policy.py:p_verbatim_spec", "capirca/lib/policy.py:t_ESCAPEDSTRING"]}
{"id": "C107", "title": "Every name is one word", "statement": "Every name of letters, digits and _-+.@/ that begins with a letter or underscore is read as one word.", "quantifier": "every name", "why_tests_cant": "names are arbitrary; other token kinds overlap with them", "anchors": ["capirca/lib/policy.py:t_STRING", "capirca/lib/policy.py:t_DSCP"]}
{"id": "C108", "title": "Aruba access lists decide like their terms", "statement": "The session access list generated for a filter, with the netdestinations of the generated configuration, permits and denies the packets of the filter's family as the terms of the filter do, in order, the first that matches deciding.", "quantifier": "every policy with Aruba targets, every packet of the family of the filter", "why_tests_cant": "terms combine addresses, users, protocols and port ranges freely, and port pairs pass through Python sets whose order depends on the numbers", "anchors": ["capirca/lib/aruba.py:Term.__str__", "capirca/lib/aruba.py:Term._GeneratePortTokens", "capirca/lib/aruba.py:Aruba._TranslatePolicy"]}
{"id": "C109", "title": "Aruba refuses keywords it cannot express", "statement": "A policy for Aruba with a term that uses a keyword, action or option outside the supported tokens of the generator is refused with an error.", "quantifier": "every policy with an Aruba target", "why_tests_cant": "the set of keywords and their combinations is open, and a silently ignored keyword widens what is permitted", "anchors": ["capirca/lib/aruba.py:Aruba._BuildTokens", "capirca/lib/aclgenerator.py:ACLGenerator.__init__"]}
{"id": "C110", "title": "Aruba aliases are defined exactly once", "statement": "Every alias used in a rule is defined by a non-empty netdestination of the rule's family in the same output, and no netdestination name is defined twice for a family.", "quantifier": "every policy with Aruba targets", "why_tests_cant": "names are derived from term names by lowering their case, over all filters of a policy", "anchors": ["capirca/lib/aruba.py:Term.__str__", "capirca/lib/aruba.py:Term._GenerateNetdest", "capirca/lib/aruba.py:Aruba.__str__"]}
{"id": "C111", "title": "Hierarchical firewall policies decide like their terms", "statement": "The rules generated for a hierarchical firewall policy allow, deny or hand over the packets of a flow as the terms of all filters do in order, the first that counts and matches deciding, for the direction, family and target networks of the flow.", "quantifier": "every policy with gcp_hf targets, every packet, network and direction", "why_tests_cant": "terms, families, threat lists and targets combine freely, and long address lists are split into several rules", "anchors": ["capirca/lib/gcp_hf.py:Term.ConvertToDict", "capirca/lib/gcp_hf.py:HierarchicalFirewall._TranslatePolicy"]}
{"id": "C112", "title": "Hierarchical firewall policies keep to the maximum cost", "statement": "The cost of the generated rules, as the sum of their ranges, lists, protocols, ports and targets, is at most what the headers say, 100 by default, and the headers cannot say more than 65536.", "quantifier": "every policy with gcp_hf targets that is accepted", "why_tests_cant": "the cost is accumulated over all rules of all filters", "anchors": ["capirca/lib/gcp_hf.py:GetRuleTupleCount", "capirca/lib/gcp_hf.py:HierarchicalFirewall._TranslatePolicy"]}
{"id": "C113", "title": "Hierarchical firewall rules are within the limits", "statement": "Every generated rule has a description of at most 64 characters, at most 256 ranges, all of one version and on one side only, at most 256 ports per protocol, at most 256 targets with valid project and network names, known threat lists only, at least one protocol and one range or list, and the priorities are 1, 2, 3 and so on.", "quantifier": "every policy with gcp_hf targets that is accepted", "why_tests_cant": "a rule over a limit is refused on deployment; sizes are unbounded in the input", "anchors": ["capirca/lib/gcp_hf.py:Term._Validate", "capirca/lib/gcp_hf.py:Term.ConvertToDict"]}
{"id": "C114", "title": "A hierarchical firewall policy has one valid name", "statement": "The generated policy has exactly one name, which is in each of its headers and keeps to the rules for names; every other option of the headers is understood.", "quantifier": "every policy with gcp_hf targets that is accepted", "why_tests_cant": "headers are read by removing known options from a list, in the order of Python sets", "anchors": ["capirca/lib/gcp_hf.py:HierarchicalFirewall._TranslatePolicy"]}
{"id": "C115", "title": "An ASA access list decides as the filter it is named after", "statement": "Once the generated commands are entered, the access list with the name of a filter decides on every IPv4 packet exactly as the terms of that filter that are not expired and meant for the platform.", "quantifier": "every policy with a filter for ciscoasa, every IPv4 packet", "why_tests_cant": "six nested loops over lists of any length, names for ports and types, and commands of one filter that act on lists of another", "anchors": ["capirca/lib/ciscoasa.py:Term.__str__", "capirca/lib/ciscoasa.py:Term._TermletToStr", "capirca/lib/ciscoasa.py:CiscoASA"]}
{"id": "C116", "title": "An ASA understands every line", "statement": "Every line of the output is a command of the device about the access list of one of the policy's filters for the platform, with a protocol, ports and types of icmp the device knows.", "quantifier": "every policy with a filter for ciscoasa", "why_tests_cant": "a line the device refuses is missing in the list it has then; every combination of protocol and port is another line", "anchors": ["capirca/lib/ciscoasa.py:Term.__str__", "capirca/lib/ciscoasa.py:CiscoASA._TranslatePolicy", "capirca/lib/cisco.py:PortMap"]}
{"id": "C117", "title": "Verbatim texts reach the ASA configuration", "statement": "The output has all verbatim texts that the terms that count have for the platform, in their order, and no others.", "quantifier": "every policy with a filter for ciscoasa", "why_tests_cant": "terms may have any number of verbatim texts for any platforms", "anchors": ["capirca/lib/ciscoasa.py:Term.__str__"]}
{"id": "C118", "title": "Windows firewall rules block and allow what the terms deny and accept", "statement": "For a direction, the generated advfirewall rules match a packet with the block action exactly if a term of the filters for the direction and version denies it, and the firewall lets it pass exactly if a term accepts it and none denies it.", "quantifier": "every policy with windows_advfirewall targets that is accepted, both directions, and every packet", "why_tests_cant": "terms have any number of addresses, protocols, ports and types whose product is rendered, and the claim is about every packet", "anchors": ["capirca/lib/windows.py:Term.__str__", "capirca/lib/windows.py:WindowsGenerator._TranslatePolicy", "capirca/lib/windows_advfirewall.py:Term._ComposeRule", "capirca/lib/windows_advfirewall.py:Term._HandleIcmpTypes"]}
{"id": "C119", "title": "The Windows firewall does what the first matching term says", "statement": "The firewall with the generated rules blocks or allows a packet as the first term says that matches it.", "quantifier": "every policy with windows_advfirewall targets that is accepted, both directions, and every packet", "why_tests_cant": "whether it holds depends on how terms overlap over all packets", "anchors": ["capirca/lib/windows_advfirewall.py:WindowsAdvFirewall", "capirca/lib/windows.py:WindowsGenerator.__str__"]}
{"id": "C120", "title": "IPsec filter lists match what their terms match", "statement": "The list of filters that the generated IPsec commands make for a term matches a packet exactly if the term matches it or its mirror image.", "quantifier": "every policy with windows_ipsec targets that is accepted, every term of it that counts, and every IPv4 packet", "why_tests_cant": "terms have any number of addresses, protocols and ports whose product is rendered, and terms of other filters may use the same name", "anchors": ["capirca/lib/windows_ipsec.py:Term._ComposeFilter", "capirca/lib/windows_ipsec.py:Term._CollapsePortTuples", "capirca/lib/windows_ipsec.py:Term._CartesianProduct"]}
{"id": "C121", "title": "IPsec commands refer to what was created before", "statement": "In the generated IPsec commands every rule refers to a policy, a list of filters and an action that commands before it create, each once; the action is that of the term; every filter comes after the creation of its list; every term that counts has a rule.", "quantifier": "every policy with windows_ipsec targets that is accepted", "why_tests_cant": "the names are composed from the names of any filters and terms", "anchors": ["capirca/lib/windows_ipsec.py:Term._HandlePreRule", "capirca/lib/windows_ipsec.py:Term.ComposeRule", "capirca/lib/windows_ipsec.py:WindowsIPSec._HandlePolicyHeader", "capirca/lib/windows_ipsec.py:WindowsIPSec._HandleTermFooter"]}
{"id": "C122", "title": "Traffic policies decide what their terms decide", "statement": "A traffic policy on an Arista switch that has loaded the generated configuration accepts or drops exactly the packets that the terms of its filters accept or drop, the first one that matches deciding.", "quantifier": "every policy with arista_tp targets that is accepted, every traffic policy of it and every packet", "why_tests_cant": "addresses become field sets that are merged, split off and renamed by text substitution, terms are duplicated per family, and some are left out; all of it depends on the other terms and filters", "anchors": ["capirca/lib/arista_tp.py:Term.__str__", "capirca/lib/arista_tp.py:AristaTrafficPolicy._TranslatePolicy", "capirca/lib/arista_tp.py:AristaTrafficPolicy.__str__", "capirca/lib/arista_tp.py:Term._processPorts", "capirca/lib/arista_tp.py:Term._processProtocol", "capirca/lib/arista_tp.py:Term._processTermOptions"]}
{"id": "C123", "title": "Traffic policies refer to field sets that exist", "statement": "Every field set that an entry of a generated traffic policy names is defined in the same output for the family of the entry, unless the term names it as a prefix list.", "quantifier": "every policy with arista_tp targets that is accepted, and every entry of the output", "why_tests_cant": "field sets with equal contents are merged by substituting names in the rendered text, for any names and any number of sets", "anchors": ["capirca/lib/arista_tp.py:AristaTrafficPolicy._TranslatePolicy", "capirca/lib/arista_tp.py:AristaTrafficPolicy._GenPrefixFieldset", "capirca/lib/arista_tp.py:AristaTrafficPolicy.__str__"]}
{"id": "C124", "title": "Counters are declared and entries have different names", "statement": "Every counter that an entry of a generated traffic policy counts is declared in its policy, no declared counter contains a dot, and the entries of a filter have different names.", "quantifier": "every policy with arista_tp targets that is accepted, and every filter of it", "why_tests_cant": "any names of terms and counters, in all families, and after the text substitutions", "anchors": ["capirca/lib/arista_tp.py:AristaTrafficPolicy._TranslatePolicy", "capirca/lib/arista_tp.py:Term.__str__"]}
{"id": "C125", "title": "Loading a traffic policy replaces the one before", "statement": "What a traffic policy contains after the generated configuration was loaded does not depend on what it contained before.", "quantifier": "every policy with arista_tp targets that is accepted, every traffic policy it has a filter for, and every former content", "why_tests_cant": "any number of filters in any order, and any former configuration of the switch", "anchors": ["capirca/lib/arista_tp.py:AristaTrafficPolicy._TranslatePolicy", "capirca/lib/arista_tp.py:AristaTrafficPolicy.__str__"]}
{"id": "C126", "title": "Filters of one traffic policy add up", "statement": "After loading, a traffic policy contains the entries of all filters with its name, in order, and nothing else.", "quantifier": "every policy with arista_tp targets that is accepted", "why_tests_cant": "any number of filters that use any names in any order", "anchors": ["capirca/lib/arista_tp.py:AristaTrafficPolicy._TranslatePolicy", "capirca/lib/arista_tp.py:AristaTrafficPolicy.__str__"]}
{"id": "C127", "title": "Rules for NSX-V decide what the terms decide", "statement": "Whatever packet the target is about, the first rule of the generated section that matches it has the action of the first term that counts and matches it.", "quantifier": "every policy with an nsxv target that is accepted, and every packet of the address families of its header", "why_tests_cant": "any number of terms with any addresses, exclusions, protocols, ports and types; addresses are split by family and dropped, and terms left out, in ways that depend on all of them", "anchors": ["capirca/lib/nsxv.py:Nsxv._TranslatePolicy", "capirca/lib/nsxv.py:Term.__str__"]}
{"id": "C128", "title": "Rules for NSX-T decide what the terms decide", "statement": "Whatever packet the target is about, the first rule of the generated security policy that matches it has the action of the first term that counts and matches it.", "quantifier": "every policy with an nsxt target that is accepted, and every packet of the address families of its header", "why_tests_cant": "any number of terms with any addresses, exclusions, protocols, ports and types; sources, destinations and both families are treated differently from each other", "anchors": ["capirca/lib/nsxt.py:Nsxt._TranslatePolicy", "capirca/lib/nsxt.py:Term.__str__"]}
{"id": "C129", "title": "NSX-T gets no network that begins with 0.0.0.0", "statement": "No source and no destination in a generated security policy begins with the address 0.0.0.0, which the API of NSX-T refuses.", "quantifier": "every policy with an nsxt target that is accepted, and every rule", "why_tests_cant": "any number of addresses and exclusions, whose differences begin anywhere", "anchors": ["capirca/lib/nsxt.py:Term.__str__", "capirca/lib/nacaddr.py:AddressListExclude"]}
{"id": "C130", "title": "Policies for NSX are rendered", "statement": "A policy whose headers have the documented options and whose terms use only supported keywords is rendered.", "quantifier": "every policy with nsxv or nsxt targets", "why_tests_cant": "any number of headers and terms, with any names and comments", "anchors": ["capirca/lib/nsxv.py:Nsxv", "capirca/lib/nsxt.py:Nsxt"]}
{"id": "C131", "title": "Sections and security policies carry what the header says", "statement": "The name and the id of the generated section or security policy are those in the header, and it is limited to the security group in the header, if there is one.", "quantifier": "every policy with nsxv or nsxt targets that is accepted", "why_tests_cant": "any options in any number and order, and any values of them", "anchors": ["capirca/lib/nsxv.py:Nsxv._ParseFilterOptions", "capirca/lib/nsxt.py:Nsxt._ParseFilterOptions"]}
{"id": "C132", "title": "The Palo Alto firewall does what the policy says", "statement": "For every packet that opens a session, the security rules generated for a Palo Alto firewall do what the first matching term of the policy, between the packet's zones, says; packets that match no term match no rule.", "quantifier": "every policy for paloalto that is accepted, and every packet", "why_tests_cant": "any number of filters, terms, tokens, ports and zones; all of them share address groups, services and applications", "anchors": ["capirca/lib/paloaltofw.py:PaloAltoFW", "capirca/lib/paloaltofw.py:Rule"]}
{"id": "C133", "title": "Palo Alto rules refer only to things that are defined", "statement": "Every address group, service, application and group member that the output refers to is defined in the same output or predefined on the device.", "quantifier": "every policy for paloalto that is accepted", "why_tests_cant": "references cross filters: whether a group is there depends on all the terms of the policy", "anchors": ["capirca/lib/paloaltofw.py:PaloAltoFW.__str__", "capirca/lib/paloaltofw.py:ServiceMap"]}
{"id": "C134", "title": "Names in Palo Alto output are unique", "statement": "No two rules, services, addresses, address groups or custom applications of the output have the same name.", "quantifier": "every policy for paloalto that is accepted", "why_tests_cant": "names are made from those of any terms in any number of filters, then shortened", "anchors": ["capirca/lib/paloaltofw.py:PaloAltoFW._TranslatePolicy", "capirca/lib/paloaltofw.py:ServiceMap.get_service_name"]}
{"id": "C135", "title": "Names in Palo Alto output have lengths that the device takes", "statement": "Rule and service names have at most 63 characters, zone names 1 to 31, custom application names at most 31.", "quantifier": "every policy for paloalto that is accepted", "why_tests_cant": "names of any length, with prefixes and suffixes added after some of the checks", "anchors": ["capirca/lib/paloaltofw.py:PaloAltoFW._TranslatePolicy", "capirca/lib/paloaltofw.py:Rule.__init__", "capirca/lib/paloaltofw.py:ServiceMap.get_service_name"]}
{"id": "C136", "title": "Palo Alto rules carry zones, action and logging of their terms", "statement": "Every rule of the output is one of a term that is neither expired nor for other platforms, in a filter for the platform; it has the zones of the filter, the action of the term, and logs the start and the end of sessions exactly if the term asks for it.", "quantifier": "every policy for paloalto that is accepted", "why_tests_cant": "any combination of logging options and actions, in any number of terms and filters", "anchors": ["capirca/lib/paloaltofw.py:Rule.__init__", "capirca/lib/paloaltofw.py:PaloAltoFW.__str__"]}
{"id": "C137", "title": "Terraform firewall rules decide like the policy", "statement": "Once the resources written for gce_vpc_tf are applied, the rule that wins for a flow allows it if the first term of the policy that is for the network, the direction and the family of the flow and matches it accepts, denies it if that term denies, and no rule matches if there is no such term.", "quantifier": "every policy for gce_vpc_tf that is accepted, with any number of filters and terms, and every flow", "why_tests_cant": "any addresses, exclusions, tags, protocols, ports and priorities, in any number of filters whose rules share one numbering, for every packet", "anchors": ["capirca/lib/gce_vpc_tf.py:Term.ConvertToDict", "capirca/lib/gce_vpc_tf.py:TerraformGCE._TranslatePolicy"]}
{"id": "C138", "title": "Terraform firewall rules are within the limits of the firewall", "statement": "The name, the description, the numbers of addresses, tags, accounts and ports of every rule are within the limits of the firewall, no tag is empty, sources and destinations are not mixed, and the sum of attributes keeps the quota that a header states.", "quantifier": "every policy for gce_vpc_tf that is accepted", "why_tests_cant": "any number of addresses, tags and ports, split into any number of rules", "anchors": ["capirca/lib/gce_vpc_tf.py:Term.ConvertToDict", "capirca/lib/gce_vpc_tf.py:GetAttributeCount"]}
{"id": "C139", "title": "Names of Terraform firewall resources are unique", "statement": "Every rule has the name of its term, or that name with a number, and no two rules of the output have the same name.", "quantifier": "every policy for gce_vpc_tf that is accepted", "why_tests_cant": "any names of terms in any number of filters, with prefixes, suffixes and numbers added", "anchors": ["capirca/lib/gce_vpc_tf.py:Term.ConvertToDict", "capirca/lib/gce_vpc_tf.py:TerraformGCE._TranslatePolicy"]}
{"id": "C140", "title": "Priorities of Terraform firewall rules", "statement": "The rules have the priorities one, two, three and so on in the order of the policy; the rules of a term that states a priority have that priority.", "quantifier": "every policy for gce_vpc_tf that is accepted", "why_tests_cant": "the number of rules of a term depends on its addresses and families, and the numbering goes on through all terms and filters", "anchors": ["capirca/lib/gce_vpc_tf.py:Term.ConvertToDict", "capirca/lib/gce_vpc_tf.py:TerraformGCE._TranslatePolicy"]}
{"id": "C141", "title": "Descriptions of Terraform firewall rules", "statement": "The rules of a term are described by its comment, or that of the header if it has none, and its owner.", "quantifier": "every policy for gce_vpc_tf that is accepted", "why_tests_cant": "comments are lists shared between terms and families and changed in place, so what a term says depends on those before it", "anchors": ["capirca/lib/gce_vpc_tf.py:Term.ConvertToDict", "capirca/lib/gce_vpc_tf.py:TerraformGCE._TranslatePolicy"]}
{"id": "C142", "title": "Encapsulation answer of cgrep", "statement": "Asked to compare two tokens, cgrep says that the second fully encapsulates the first exactly if every address of the first is an address of the second, and likewise for the ports of service tokens.", "quantifier": "every definitions database and every pair of tokens", "why_tests_cant": "coverage by unions of networks depends on the whole set of networks on both sides", "anchors": ["tools/cgrep.py:check_encapsulated", "tools/cgrep.py:get_nets"]}
{"id": "C143", "title": "Membership report of cgrep", "statement": "Asked for a token and addresses, cgrep reports for each address whether the token contains it.", "quantifier": "every definitions database, token and list of addresses", "why_tests_cant": "tokens are nested to any depth and may mention other tokens in any order", "anchors": ["tools/cgrep.py:compare_ip_token", "tools/cgrep.py:main"]}
{"id": "C144", "title": "Tokens of an address in cgrep", "statement": "Asked for an address, cgrep lists exactly the tokens that contain it with those of their networks that do, longest prefix first.", "quantifier": "every definitions database and address", "why_tests_cant": "the nesting of tokens and the order of networks are unbounded", "anchors": ["tools/cgrep.py:get_ip_parents", "tools/cgrep.py:get_nets_and_highest_prefix"]}
{"id": "C145", "title": "Difference of two addresses in cgrep", "statement": "Asked for the group difference of two addresses, cgrep lists exactly the tokens that contain both, only the first and only the second.", "quantifier": "every definitions database and pair of addresses", "why_tests_cant": "it depends on all tokens of the database at once", "anchors": ["tools/cgrep.py:group_diff"]}
{"id": "C146", "title": "Union and difference of two tokens in cgrep", "statement": "Asked to compare two tokens, cgrep prints the networks of either as the union and those of exactly one of them as the difference.", "quantifier": "every definitions database and pair of tokens", "why_tests_cant": "tokens have any number of networks, shared in any way", "anchors": ["tools/cgrep.py:compare_tokens"]}
{"id": "C147", "title": "Services of a port in cgrep", "statement": "Asked for a port and a protocol, in either order, cgrep lists exactly the service tokens that cover the port for the protocol.", "quantifier": "every service definitions database, port and protocol", "why_tests_cant": "services are nested to any depth and have ranges of any size", "anchors": ["tools/cgrep.py:get_services"]}
{"id": "C148", "title": "Contents of tokens in cgrep", "statement": "Asked for a network or service token, cgrep lists exactly the networks or ports it stands for, and says so if it is not defined.", "quantifier": "every definitions database and token", "why_tests_cant": "tokens are nested to any depth", "anchors": ["tools/cgrep.py:main", "tools/cgrep.py:get_nets", "tools/cgrep.py:get_ports"]}
{"id": "C149", "title": "Reading policies for searching", "statement": "The policy reader reads a policy file as exactly its filters, with exactly their terms and the values of their attributes.", "quantifier": "every policy file", "why_tests_cant": "texts in double quotes, repeated attributes and the order of lines are arbitrary, and the reader keeps state from line to line", "anchors": ["capirca/lib/policyreader.py:Policy.__init__"]}
{"id": "C150", "title": "Searching policies", "statement": "Searching a policy for addresses and ports returns exactly the positions of the filters and terms that apply to all of them.", "quantifier": "every definitions database, policy and search", "why_tests_cant": "the tokens that contain what is asked for depend on the whole database", "anchors": ["capirca/lib/policyreader.py:Policy.Matches"]}
{"id": "C151", "title": "What Versa rules carry", "statement": "Every term of a filter that is for this platform and neither expired nor for replies gives rules in order, named like the term, with its zones, address groups, services, DSCP values, action and logging; none are left out but those with addresses of other families only. Names of rules of a filter differ, and template, tenant and policy are those that the headers give last.", "quantifier": "every policy", "why_tests_cant": "terms, filters and headers come in any number and order, and share counters and names", "anchors": ["capirca/lib/versa.py:Versa._TranslatePolicy", "capirca/lib/versa.py:Term.__str__", "capirca/lib/versa.py:Versa.HeaderParams"]}
{"id": "C152", "title": "Versa address groups", "statement": "Every address group that a rule refers to is defined once, and stands for exactly the addresses of the family of the filter that the term has on that side; no address is defined twice.", "quantifier": "every policy", "why_tests_cant": "the numbers of addresses run through all terms and filters", "anchors": ["capirca/lib/versa.py:Versa._BuildAddressBook", "capirca/lib/versa.py:Versa._GenerateAddressBook"]}
{"id": "C153", "title": "Versa services", "statement": "Every service that a rule refers to is defined, with the protocol and the ports of the term.", "quantifier": "every policy", "why_tests_cant": "names of services are made in two places, from counters that depend on all terms", "anchors": ["capirca/lib/versa.py:Versa._GenerateApplications", "capirca/lib/versa.py:Term.BuildTermApp"]}
{"id": "C154", "title": "What Versa rules decide", "statement": "The firewall does with every packet what the first term that matches it says.", "quantifier": "every policy and packet", "why_tests_cant": "it ranges over all packets and all combinations of terms", "anchors": ["capirca/lib/versa.py:Versa", "capirca/lib/versa.py:Term"]}
{"id": "C155", "title": "Large Versa terms", "statement": "A term with more addresses than fit into one rule is split into rules that together do what the term says.", "quantifier": "every policy", "why_tests_cant": "it depends on the number and the order of addresses on both sides", "anchors": ["capirca/lib/versa.py:Versa._FixLargePolices"]}
{"id": "C156", "title": "What NSX rules carry", "statement": "The generated section or security policy has one rule for each term, in their order, named like it, with its action, and logged just if the term asks for logging; terms are left out only if they are expired, for other platforms, for replies, have another action, or no packets of the families at hand.", "quantifier": "every policy", "why_tests_cant": "terms come in any number and order", "anchors": ["capirca/lib/nsxv.py:Term.__str__", "capirca/lib/nsxt.py:Term.__str__", "capirca/lib/nsxv.py:Nsxv._TranslatePolicy", "capirca/lib/nsxt.py:Nsxt._TranslatePolicy"]}
{"id": "C157", "title": "Decisions of MS-MPC rule sets", "statement": "For every packet of the family of a filter, the stateful firewall rule generated for the filter does what the first term of the filter that matches the packet says, and drops the packets that no term matches.", "quantifier": "every policy and packet", "why_tests_cant": "exceptions, prefix lists, application sets and the parts into which a term is split by family have to mean the same as the term for every packet", "anchors": ["capirca/lib/junipermsmpc.py:Term.__str__", "capirca/lib/junipermsmpc.py:JuniperMSMPC._TranslatePolicy", "capirca/lib/junipermsmpc.py:JuniperMSMPC.__str__"]}
{"id": "C158", "title": "References of MS-MPC rules", "statement": "Each application set to which a generated rule refers is defined once in its group, is not empty, and each application it contains is defined once in the group.", "quantifier": "every policy", "why_tests_cant": "sets and applications are collected over all terms under shortened names", "anchors": ["capirca/lib/junipermsmpc.py:Term.__str__", "capirca/lib/junipermsmpc.py:JuniperMSMPC._TranslatePolicy", "capirca/lib/junipermsmpc.py:JuniperMSMPC.__str__", "capirca/lib/junipermsmpc.py:JuniperMSMPC._GenerateApplications"]}
{"id": "C159", "title": "What MS-MPC rules carry", "statement": "A group of the name of the filter is generated for each filter, with its direction. It has for each term, in their order, its verbatim text or one rule, or two named with the suffixes of the families, with the addresses of the term, its prefix lists, actions and logging, and its application set if it has protocols, ports or types; a term of the platform is left out only if it has no packets of the families at hand.", "quantifier": "every policy", "why_tests_cant": "terms come in any number and combination", "anchors": ["capirca/lib/junipermsmpc.py:Term.__str__", "capirca/lib/junipermsmpc.py:JuniperMSMPC._TranslatePolicy", "capirca/lib/junipermsmpc.py:JuniperMSMPC.__str__"]}
{"id": "C160", "title": "Which policies the MS-MPC generator accepts", "statement": "The output exists just if the options of each header are a name and known options without conflict, the terms of a filter have different names, ICMP types are those of the one protocol of their term, and the actions are known.", "quantifier": "every policy", "why_tests_cant": "every term and header has to be looked at", "anchors": ["capirca/lib/junipermsmpc.py:Term.__str__", "capirca/lib/junipermsmpc.py:JuniperMSMPC._TranslatePolicy", "capirca/lib/junipermsmpc.py:JuniperMSMPC.__str__"]}
{"id": "C161", "title": "Names of MS-MPC rules", "statement": "The names of the rules of a group are distinct.", "quantifier": "every policy", "why_tests_cant": "names with suffixes may be names of other terms", "anchors": ["capirca/lib/junipermsmpc.py:Term.__str__", "capirca/lib/junipermsmpc.py:JuniperMSMPC._TranslatePolicy", "capirca/lib/junipermsmpc.py:JuniperMSMPC.__str__"]}
{"id": "C162", "title": "What the line-oriented policy reader reads", "statement": "A text is read if and only if each line outside of blocks is blank, a comment, an include, or opens a header or a term, each block is closed by a line of its own, and its lines are blank, comments, fields of a known name with a value of their kind, or continue the field before; what is read are these in the order of the text, with the names of naming fields in one set. What stands after the brace that opens a term is not read.", "quantifier": "every text", "why_tests_cant": "lines come in any number and order, and the meaning of a line depends on the block that is open", "anchors": ["capirca/lib/policy_simple.py:PolicyParser.Parse", "capirca/lib/policy_simple.py:PolicyParser.ParseTopLevel", "capirca/lib/policy_simple.py:PolicyParser.ParseInBlock", "capirca/lib/policy_simple.py:PolicyParser.ParseField", "capirca/lib/policy_simple.py:NamingField.ParseString"]}
{"id": "C163", "title": "Reading what the line-oriented policy reader prints", "statement": "The text that is printed of a policy that was read is read again as the same policy, with a blank line after it.", "quantifier": "every text that is read", "why_tests_cant": "values of any length are wrapped and indented when they are printed, and joined when they are read", "anchors": ["capirca/lib/policy_simple.py:PolicyParser.Parse", "capirca/lib/policy_simple.py:Policy.__str__", "capirca/lib/policy_simple.py:Field.__str__", "capirca/lib/policy_simple.py:NamingField.ValueStr", "capirca/lib/policy_simple.py:Include.__str__"]}
{"id": "C164", "title": "Descriptions of terms", "statement": "Each term that is read has a description that tells its verbatim texts or its action, protocols, addresses and ports.", "quantifier": "every term", "why_tests_cant": "fields come in any number and combination", "anchors": ["capirca/lib/policy_simple.py:Term.Describe"]}
{"id": "C165", "title": "Searches in policies that were read", "statement": "A search in a block or a policy gives exactly the fields and members for which the condition holds, each once with its place, in their order; a search for fields of blocks gives those of exactly the blocks that match.", "quantifier": "every policy and condition", "why_tests_cant": "members, fields and conditions are arbitrary", "anchors": ["capirca/lib/policy_simple.py:Block.Match", "capirca/lib/policy_simple.py:Policy.Match", "capirca/lib/policy_simple.py:Policy.MatchFields"]}
{"id": "C166", "title": "A Junos EVO filter decides about every packet like the policy", "statement": "For every list of terms that renders as a filter of one family with some direction and interface, the filter accepts (drops) a packet exactly if the policy does, also if extension headers precede the payload of an IPv6 packet.", "quantifier": "every header, every list of terms, every packet and first extension header", "why_tests_cant": "the keywords depend on direction, interface and the protocols of each term, and terms are rewritten before printing", "anchors": ["capirca/lib/juniperevo.py:Term._Ipv6ProtocolMatch", "capirca/lib/juniperevo.py:Term.__str__", "capirca/lib/juniper.py:Juniper._TranslatePolicy"]}
{"id": "C167", "title": "Junos EVO filters use the documented keywords for protocols", "statement": "In every IPv6 filter for the ingress of physical interfaces, extension headers are matched with next-header and other protocols with payload-protocol; in every other IPv6 filter all are matched with payload-protocol and extension headers by number.", "quantifier": "every header, every list of terms", "why_tests_cant": "lists of protocols and excluded protocols of any length are combined with directions and interfaces", "anchors": ["capirca/lib/juniperevo.py:Term._Ipv6ProtocolMatch", "capirca/lib/aclgenerator.py:ProtocolNameToNumber"]}
{"id": "C168", "title": "Junos EVO filters need a direction only for IPv6", "statement": "An IPv6 filter without a direction in its header is refused unless no term of it would be printed; for filters of other families the direction and the interface change nothing.", "quantifier": "every header, every list of terms", "why_tests_cant": "the check is made for each term when it is printed, after other checks and rewritings", "anchors": ["capirca/lib/juniperevo.py:Term._Ipv6ProtocolMatch", "capirca/lib/juniper.py:Juniper._TranslatePolicy"]}
{"id": "C169", "title": "Keywords of SRX loopback filters", "statement": "A policy is accepted for SRX loopback filters exactly if its keywords are those of the Juniper generator and no active term uses flexible matches, encapsulation, decapsulation or port mirroring.", "quantifier": "every policy", "why_tests_cant": "terms have any combination of keywords and platforms", "anchors": ["capirca/lib/srxlo.py:SRXlo._BuildTokens", "capirca/lib/aclgenerator.py:ACLGenerator.__init__"]}
{"id": "C170", "title": "Sessions end when the terms say", "statement": "Every application to which a rule of the generated MS-MPC or SRX configuration refers has the timeout of the term the rule is for; without one, applications with ICMP types get a minute and others none.", "quantifier": "every policy and rule", "why_tests_cant": "terms of any number share applications, which are collected and printed apart from the rules", "anchors": ["capirca/lib/junipermsmpc.py:JuniperMSMPC._GenerateApplications", "capirca/lib/junipersrx.py:JuniperSRX._GenerateApplications"]}
{"id": "C171", "title": "Comments of addresses stay comments", "statement": "Whatever comment an address has in the definitions, the lines that the generated Junos filter has for it are a comment to the device, show the first 132 characters of the text without losing any, and leave the rest of the filter as it is; with noverbose or with marks of comments in the text there are none.", "quantifier": "every comment of an address and every place in a filter", "why_tests_cant": "the text is cut into pieces at positions that depend on its length and spaces, and goes through the builder that counts braces and marks", "anchors": ["capirca/lib/juniper.py:Term._Comment", "capirca/lib/juniper.py:Config.Append"]}
{"id": "C172", "title": "Comments of terms and filters stay comments", "statement": "Whatever comments and owner a term or filter has, the lines that the generated Junos filter has for them are a comment to the device, show the texts in full, and leave the rest of the filter as it is.", "quantifier": "every list of comments and every owner", "why_tests_cant": "comments are free text that can hold marks of comments, braces and line breaks", "anchors": ["capirca/lib/juniper.py:Term.__str__", "capirca/lib/juniper.py:Juniper.__str__", "capirca/lib/juniper.py:Config.Append"]}
{"id": "C173", "title": "The search finds every policy once", "statement": "A run over a base directory renders exactly the files *.pol in directories named pol in or below the base that are not in an ignored directory, each of them once.", "quantifier": "every tree of directories and every list of ignored directories", "why_tests_cant": "trees have any depth and ignored directories can be anywhere in them", "anchors": ["capirca/aclgen.py:DescendDirectory"]}
{"id": "C174", "title": "Equal terms do the same", "statement": "If two terms or filters compare equal they match the same packets and do the same with them; a term is equal to a copy of itself, and the order of comparison does not matter.", "quantifier": "every pair of terms, every pair of filters and every packet", "why_tests_cant": "a comparison can miss a field for some value of it, and packets cannot be enumerated", "anchors": ["capirca/lib/policy.py:Term.__eq__", "capirca/lib/policy.py:Policy.__eq__"]}
{"id": "C175", "title": "The children of a token are the tokens directly within it", "statement": "Asking for the children of a network token gives exactly the tokens among its values; the networks of a token are those directly in it together with those of its children.", "quantifier": "every set of definitions and every token", "why_tests_cant": "nesting has any depth and definitions any shape", "anchors": ["capirca/lib/naming.py:Naming.GetNetChildren"]}
{"id": "C176", "title": "Comments are broken into lines that stay comments and show them in full", "statement": "The lines that a comment is broken into are no longer than asked for and have no line breaks, so that every line of the configuration for it carries the mark of a remark; they show all of the comment, also when the term is rendered again.", "quantifier": "every list of comments, every width and every name of a term", "why_tests_cant": "the places of the breaks depend on the length of every word, and comments are free text", "anchors": ["capirca/lib/aclgenerator.py:WrapWords", "capirca/lib/cisco.py:ObjectGroupTerm.__str__", "capirca/lib/cisco.py:Term.__str__"]}
{"id": "C177", "title": "Loading a Cisco-style configuration replaces the lists of its filters", "statement": "Whatever a device has before, after the configuration generated for a policy is loaded, every access list and every object group of the policy has exactly the entries of the policy, in their order, and all other lists are as before.", "quantifier": "every policy, every platform of the Cisco family and every state of the device", "why_tests_cant": "the effect depends on what the device has and on all filters of the policy together", "anchors": ["capirca/lib/cisco.py:Cisco.__str__", "capirca/lib/cisco.py:Cisco._AppendTargetByFilterType", "capirca/lib/cisco.py:Cisco._FilterCmd", "capirca/lib/cisco.py:ObjectGroup.__str__", "capirca/lib/arista.py:Arista._AppendTargetByFilterType", "capirca/lib/cisconx.py:CiscoNX._AppendTargetByFilterType", "capirca/lib/ciscoxr.py:CiscoXR._AppendTargetByFilterType"]}
{"id": "C178", "title": "Loading the set commands of an ipset policy gives every set its addresses", "statement": "The set commands generated for a policy are accepted by `ipset restore`; afterwards every set named by the rules has exactly the addresses of its term, every other set is as before, and with the option for existing sets the commands can be given again.", "quantifier": "every policy for the platform ipset and every state of the sets of the host", "why_tests_cant": "the effect depends on the sets that the host has, on the number of addresses of each set and on all filters together", "anchors": ["capirca/lib/ipset.py:Ipset._GenerateSetConfig", "capirca/lib/ipset.py:Ipset.__str__", "capirca/lib/ipset.py:Term._GenerateAddressStatement"]}
{"id": "C179", "title": "The text of a Versa configuration says what the configuration says", "statement": "A device that reads the text generated for a policy gets exactly the rules, addresses, groups and services of the policy in their order; comments have no effect.", "quantifier": "every policy, all names, addresses and ports in it, and all comments", "why_tests_cant": "names, comments and lists are free and of any length, and one character can change how all that follows is read", "anchors": ["capirca/lib/versa.py:Tree.PrintTreeInt", "capirca/lib/versa.py:Term.BuildTerm", "capirca/lib/versa.py:Versa.GenerateAddressBook", "capirca/lib/versa.py:Versa.GenerateApplications", "capirca/lib/versa.py:Versa.__str__"]}
{"id": "C180", "title": "A Cisco router decides like the policy after the configuration is loaded", "statement": "After the configuration generated for a policy is entered on a router, whatever access lists the router had before, the access list of every filter permits or denies each packet of its family as the filter does.", "quantifier": "every policy, every filter of it, every previous state of the router and every packet", "why_tests_cant": "the old state, the other filters and the packet are free, and the claim joins rendering, printing and loading", "anchors": ["capirca/lib/cisco.py:Cisco._TranslatePolicy", "capirca/lib/cisco.py:Cisco.__str__", "capirca/lib/cisco.py:Cisco._AppendTargetByFilterType", "capirca/lib/arista.py:Arista._AppendTargetByFilterType", "capirca/lib/cisconx.py:CiscoNX._AppendTargetByFilterType", "capirca/lib/ciscoxr.py:CiscoXR._AppendTargetByFilterType"]}
{"id": "C181", "title": "A host with sets decides like the policy after the sets are loaded", "statement": "On a host without sets of these names the set commands generated for a policy all succeed, and with the sets that then exist the generated rules give every packet the verdict that the filter asks for.", "quantifier": "every policy, every filter of it, every previous state of the host and every packet", "why_tests_cant": "the sets, their sizes, the state of the host and the packet are free, and the claim joins the commands for the sets with the rules that refer to them", "anchors": ["capirca/lib/ipset.py:Ipset.__str__", "capirca/lib/ipset.py:Ipset._GenerateSetConfig", "capirca/lib/ipset.py:Term._CalculateAddresses", "capirca/lib/iptables.py:Term.__str__"]}
{"id": "C182", "title": "The reports of aclcheck tell exactly the matches", "statement": "From the text that aclcheck prints, and from its sentences, a reader gets exactly the matching terms in order, each under its filter, with its action and with the conditions under which it matches.", "quantifier": "every policy whose names are words, and every query", "why_tests_cant": "the number of filters and terms and all names are free, and a match shown under another filter or without its condition misleads the reader", "anchors": ["capirca/lib/aclcheck.py:AclCheck.__str__", "capirca/lib/aclcheck.py:AclCheck.DescribeMatches", "capirca/lib/aclcheck.py:Match.__str__", "aclcheck_cmdline.py:main"]}
{"id": "C183", "title": "The order of the definition files makes no difference", "statement": "However the operating system lists the files of a definitions directory, the directory loads or is refused alike, every name has the same values, and every query for networks or services is answered alike.", "quantifier": "every definitions directory and every two orders of its service files and of its network files", "why_tests_cant": "the order is that of the file system; the number, sizes and cross references of the files are free", "anchors": ["capirca/lib/naming.py:Naming._Parse", "capirca/lib/naming.py:Naming._ParseLine", "capirca/lib/naming.py:Naming._CheckUnseen"]}
{"id": "C184", "title": "The text of a Juniper filter says what its terms say", "statement": "A device that reads the text of a Juniper policy, with its comments, quotes, blocks and statements, finds filter by filter every statement of every term, in the order and in the blocks of the terms, and nothing else: no comment hides a statement and no line break or indentation changes one.", "quantifier": "every list of filters, of terms, conditions, addresses with comments, actions, owners and comments, and every text of networks", "why_tests_cant": "the number, nesting and lengths of the pieces are free, and a comment that is closed too early or too late only shows with certain texts", "anchors": ["capirca/lib/juniper.py:Juniper.__str__", "capirca/lib/juniper.py:Term.__str__", "capirca/lib/juniper.py:Config", "capirca/lib/juniper.py:Term._Comment"]}
{"id": "C185", "title": "The text of an SRX configuration says what its books, policies and applications say", "statement": "A device that reads the text of an SRX policy, with its comments, blocks and statements, finds every address book with its addresses and sets, every filter with its groups and policies in their order, and every application, and nothing else: no comment hides a statement or adds one.", "quantifier": "every list of address books, filters with headers, policies, owners and comments, every list of applications, and every text of networks", "why_tests_cant": "the number, nesting and lengths of the pieces are free, and a comment that is closed too early or a brace too many only shows with certain policies", "anchors": ["capirca/lib/junipersrx.py:JuniperSRX.__str__", "capirca/lib/junipersrx.py:Term.__str__", "capirca/lib/junipersrx.py:JuniperSRX._GenerateAddressBook", "capirca/lib/junipersrx.py:JuniperSRX._GenerateApplications", "capirca/lib/junipersrx.py:IndentList"]}
