# Formal model of google/capirca in Lean 4 - design

## 1. Layout

| path | contents |
|---|---|
| `lean/Verif/Model/*.lean`  | executable model of the Python code, function by function; every definition cites file:lines of `/repo` |
| `lean/Verif/Spec/*.lean`   | small independent specifications (denotations, packets, first-match, longest-prefix match, ...) which do not call the model |
| `lean/Verif/Lemmas/*.lean` | helper lemmas |
| `lean/Verif/Props/*.lean`  | the property theorems, one section per property id, each with a concrete `example` meeting its hypotheses |
| `properties.jsonl`, `MANIFEST.json`, `seeded/LOG.jsonl` | property list, claim status, mutation-test log |

## 2. Modelling conventions

* Python exceptions are values (`Except Err a`); each exception class raised by the code is a constructor of an `Err` type.
* Mutable lists/stack loops become structural recursion on lists (head of the Lean list = end of a Python stack when that is what the loop pops).
* `while` loops with no structural argument take fuel; a theorem shows the fuel the model supplies is always sufficient.
* Python integers are `Nat`/`Int`; bit operations are `Nat.land`, `<<<`, `^^^` as in the code, not their arithmetic paraphrase.
* `sorted` (stable) is modelled by stable insertion sort (`isort`), which computes the same list as any stable sort.
* Strings whose characters matter are `List Char`; opaque names are `String`.
* Python dict/set: association lists / duplicate-free lists; where the iteration order of a set is unspecified, theorems hold for every order.

## 3. Trusted base

* Lean 4.33.0's kernel. Axioms used: at most `propext`, `Classical.choice`, `Quot.sound` (checked with `#print axioms`; see `Verif/Audit.lean`). No axioms of our own, no `sorry`, no `native_decide`/`bv_decide`.
* That the Lean definitions under `Model/` say what the cited Python lines do (read by hand, no extraction), including the documented semantics of the Python standard library pieces they use (`ipaddress`, `sorted`, `str` methods, `os.path`).
* Router semantics (Cisco ACL matching, Junos longest-prefix matching, iptables chains, pcap expressions) as written in `Spec/`.

## 4. Plan per property

| id | what is modelled | how it is proved / status |
|---|---|---|
| C01 | `CollapseAddrList`, `_CollapseAddrListInternal`, `_SafeToMerge`, `supernet`, bit tests as in the code | induction over the stack; the model can raise `TypeError` (mixed families with complements), so: denotation preserved whenever it returns, returns always without complements; the crash is a proved counterexample to totality |
| C02 | same | stack invariant (sorted, disjoint, sibling-free); uniqueness of sibling-free covers |
| C03 | same | every competing list maps onto the canonical one (pigeonhole) |
| C04 | same + longest-prefix-match spec | full claim is false: counterexample theorem; `_partial` theorem under the condition that no merge happens over a complement |
| C05 | `CollapseAddrListPreserveTokens` with its index loop | invariant of the index loop |
| C06, C07 | `RemoveAddressFromList`, `exclude_address`, stdlib `summarize_address_range` | arithmetic of aligned ranges; induction on the range |
| C08 | `AddressListExclude(collapse=True)` | invariant of the two-stack sweep, fuel sufficiency |
| C09 | `AddressListExclude(collapse=False)` | false on overlapping supersets (counterexample); `_partial` on disjoint one-family supersets |
| C10 | `_InNetList`, `IsSuperNet`, `CheckAddressIsContained` | laminarity of CIDR networks |
| C11, C12 | `summarizer.py` | induction over rounds; C12 false (counterexample), `_partial` when no mask loses its top bit |
| C13, C14 | `CollapsePortList`, `CheckPortIsContained` | induction; minimality is false ((10,20),(20,30)), counterexample + `_partial` |
| C15 | `Term.__contains__` field by field | false (counterexamples); `_partial` on the sound fragment |
| C16 | `_DetectShading`, `AddFilter` | decision logic + first-match spec |
| C17 | `FlattenAll` | false (counterexample); `_partial` |
| C18 | `AddressCleanup` | from C01, C05, C13 |
| C19 | `TranslatePorts`, `_TranslateTerms` | refinement to a relational spec of service definitions |
| C20 | `SanityCheck` | decision logic; the KeyError path is a counterexample to "only policy errors" |
| C21 | `GetAddressOfVersion` | list induction |
| C22, C23 | `GetNet`, `GetService`, `GetServiceByProto` with fuel for the recursion | reachability spec; termination on well-founded definition graphs; divergence on cycles is a counterexample |
| C24, C25 | `_ParseLine` state machine, `_CheckUnseen` | invariant over line histories; C25 false for commented values (counterexample) + `_partial` |
| C26 | `GetIpParents`, `GetPortParents`, `_GetParents` | reachability spec |
| C27 | `port.py` | decision logic |
| C28, C29 | `_Preprocess`, `_SubDirectory`, path normalisation, abstract file system | induction on the depth counter |
| C30, C31 | `aclcheck.py` | induction over terms; C31 false (excludes ignored): counterexample + `_partial` |
| C32-C35 | `aclgenerator.py` | decision logic / list induction |
| C36-C38 | `aclgen.py` `FilesUpdated`, `WriteFiles`, `Run` with an abstract disk and arbitrary worker schedules | invariants over schedules |
| C39-C42 | `cisco.py` | refinement of the rendered line list (abstract syntax of lines, text layout not modelled) to the term's packet set |
| C43-C45 | `juniper.py` | longest-prefix-match spec, builder invariant |
| C46, C47 | `iptables.py` | chain semantics spec |
| C48 | `ipset.py` | same, name collisions are a counterexample |
| C49, C50 | `pcap.py` | boolean-expression semantics; counterexamples |
| C51 | comments of `CollapseAddrList` | stack invariant over the comments |
| C52 | `_TranslateTerms` with C01, C19, C22 | composition; an include token without addresses is a counterexample |
| C53 | `ActionMatch` | substring test; counterexample + `_partial` |
| C54 | `TruncateWords`/quoting helpers of `aclgenerator.py` | list induction; single texts are a counterexample |
| C55 | `ACLGenerator.__init__` protocol check | decision logic |
| C56-C59 | `aclgen.py`, `utils/config.py` | disk invariants, name arithmetic; counterexamples |
| C60-C64 | `cisco.py`, `ciscoxr.py`, `cisconx.py`, `arista.py`, `brocade.py` whole filters | first-match refinement; object-group names, duplicates and standard lists refuted where false |
| C65-C68 | `juniper.py` terms, filters, mixed filters, repeated printing | first-match refinement over Junos statements |
| C72-C74 | `cloudarmor.py` | splitting into rules of five ranges, best priority = first rule; counterexamples |
| C75, C76 | `openconfig.py` | nested loops over a shared dictionary give the product of the fields (`loop_spec`), best sequence number = first entry; counterexamples |
| C77, C78 | `sonic.py` | the same for six loops whose keys are not reset (`explode_spec`), highest priority = first rule, numbers and names by induction over the filters; counterexamples |
| C79 | `gce.py` | rules by priority with deny before accept refine first match (`decides_first`) when priorities follow the order; splitting keeps the union; counterexamples |
| C80-C82 | `gce.py` limits, quota, names, descriptions | induction over filters, terms, families and parts; colliding names and shared comments are counterexamples |
| C83-C86 | `k8s.py` | accepting terms are a union, so that first match is reached when denying terms come last; induction over terms and filters; counterexamples |
| C87-C91 | `nftables.py` | runs through chains as an inductive relation, refined to first match per chain and per base chain; the nested dictionary of tables as an invariant of a fold (`Filled`); counterexamples |
| C92-C95 | `packetfilter.py` | walks with `quick` rules refined to first match; the dictionary of tables as an invariant of a fold (`Entered`); state as an invariant over filters; counterexamples |
| C96-C101 | `junipersrx.py` | policies refined to terms block by block; address books and applications as invariants of the fold over terms and filters (`Good`, `Later`); brackets by an inductive relation; counterexamples |
| C102, C105, C107 | lexer of `policy.py` | a relation between texts and tokens (`Spells`, `Reads`) and induction over the text; counterexamples |
| C103 | grammar of `policy.py` | the recursive descent accepts exactly an inductively defined grammar (`PolicyIs`); counterexamples |
| C104, C106 | `Term.AddObject`, `Header.AddObject`, verbatim texts | invariant of the fold over items (`held`); counterexamples |
| C108-C110 | `aruba.py` | lines refined to terms block by block; an alias means the netdestinations of its name in the whole output, which is why names must differ; counterexamples |
| C111-C114 | `gcp_hf.py` | rules refined to terms block by block over all filters, priorities as an invariant of the loops, limits and cost by what every pass adds; counterexamples |
| C115-C117 | `ciscoasa.py` | the output as commands that change lists; the list of a filter refined to its terms block by block; counterexamples |
| C118-C121 | `windows.py`, `windows_advfirewall.py`, `windows_ipsec.py` | rules refined to terms one by one, blocking rules win whatever the order; references as an invariant of the sequence of commands; counterexamples, two of them for every policy |
| C122-C126 | `arista_tp.py` | entries refined to terms block by block; field sets through merging and renaming in the text, which is why names must keep clear of each other; the output as commands that change policies; counterexamples |
| C127-C131, C156 | `nsxv.py`, `nsxt.py` | one model for what both share; rules refined to terms block by block; differences of networks begin with the address 0 only if their minuend does; counterexamples |
| C132-C136 | `paloaltofw.py` | invariant of the address book through terms and filters, rules refined to terms block by block; groups, addresses, services and applications shared by all filters; counterexamples |
| C137-C141 | `gce_vpc_tf.py` | each pass makes the rules of `gce.py` under other actions and priorities (`Tf.convert_gce`), the numbering goes on through filters, so position is priority; counterexamples |
| C142-C148 | `tools/cgrep.py` | on top of the definitions lookups of C22, C23 and C26; counterexamples |
| C149-C150 | `policyreader.py` | simulation of the line-by-line reader against a grammar of policy files; counterexamples |
| C151-C155 | `versa.py` | the loop over filters and terms refined to pieces of terms, counters and address groups as invariants; counterexamples, three of them for every policy |
| C157-C161 | `junipermsmpc.py` | the loop over filters and terms refined to pieces of terms, applications as an invariant of the list that all filters share; counterexamples |
| C162-C165 | `policy_simple.py` | the parser refined to a grammar of lines, printing as lines that are read again; counterexamples, one of them for every term |
| C166-C169 | `juniperevo.py`, `srxlo.py` | reduction to the Juniper theorems through the form of the protocol conditions; counterexamples |
| C170 | timeouts in `junipermsmpc.py`, `junipersrx.py` | applications traced from rules back to terms; counterexample |
| C171-C172 | comments in `juniper.py` | the lines that `Append` makes read by an automaton for comments, pieces of a text by induction; counterexamples |
| C173 | `DescendDirectory` of `aclgen.py` | structural induction over directory trees; counterexamples |
| C174 | `Term.__eq__`, `Policy.__eq__` | equal sorted lists have the same members; counterexamples |
| C175 | `GetNetChildren` of `naming.py` | on top of C22; counterexample |
| C176 | `WrapWords` of `aclgenerator.py` (its regular expression as a matcher with its own backtracking), remarks of `cisco.py` | induction over the text with the length of the word before the position as invariant; counterexamples |
| C177 | `__str__`, `_AppendTargetByFilterType`, `_FilterCmd` of `cisco.py`, `arista.py`, `cisconx.py`, `ciscoxr.py` | a device that reads lines; induction over lists and groups; counterexamples |
| C178 | `_GenerateSetConfig`, `__str__` of `ipset.py` | a host that runs set commands; induction over the sets; counterexamples |
| C179 | `Tree`, `BuildTerm` and its parts, `GenerateAddressBook`, `GenerateApplications`, `__str__` of `versa.py` | a reader of the text (words, statements, blocks, comments); each builder refined to items; counterexamples |
| C180 | the functions of C60 and C177 | the lists that a filter stands for; C177 gives the list of the device, C60 its decisions; counterexample |
| C181 | the functions of C48 and C178 | the sets of the host after C178 denote the sets of C48; walks depend only on the addresses of the sets |
| C182 | `__str__`, `DescribeMatches` and `Match.__str__` of `aclcheck.py` | a reader of the texts (lines, words, indentation) gives back the matches |
| C183 | the loader of C24-C25 | permuting files that start with a definition permutes the dictionary; unseen tokens are exactly the undefined values |
| C184 | `Model/JuniperText.lean`: text of terms and filters | induction over the lines given to `Append`: what a reader (words, quotes, blocks, comments) finds in each; the printed terms of tidy policies are neat, statement by statement; refuted for comments that end themselves; verbatim terms missing |
| C185 | `Model/SrxText.lean`: text of address books, filters, policies, applications and comments | induction over lines whose braces match: what a reader finds in them at every indentation; numbers, ports and names of parts are plain words; refuted for comments that end themselves; policies with several actions and applications with eight ICMP terms (C99) are left out |
| C69-C71 | `iptables.py`, `ipset.py`, `speedway.py` terms, filters, default policies | chain traversal (`Nf.Walk`), counterexamples for every condition that excludes accepted terms |

Properties that turn out false of the code are kept in full in `properties.jsonl`; the MANIFEST marks them `partial`, listing the refutation theorem and the `_partial` theorem.

## 5. What is modelled and what is not, per area

* **nacaddr, summarizer, policy terms**: modelled in full except text rendering (`__str__`) and the fields of `Term` that nothing modelled reads (comment, owner, timeout, ...). In-place mutation of shared address objects (comments appended to an address that is also in another list) is not modelled: values are copied.
* **naming**: the line parser works on characters; parsing of IP texts is a parameter of the model; upper/lower case and white space are the ASCII ones. The Python recursion limit is not modelled: unbounded recursion is "runs out of every fuel".
* **policy translation**: fields are translated in a fixed order, so if two fields are wrong the error reported is the first one in that order; warnings and logging are not modelled.
* **policy texts**: the lexer works on characters, with its regular expressions written out as functions and `\w`, `\d` taken as ASCII; the LALR parser is written as recursive descent; the attributes of `policy.Term` that the model of terms leaves out are read but not kept; `next-ip` is not resolved; a tuple list that starts with a comma is an error in the model; if several errors apply the model raises one of them.
* **includes**: symbolic links and NUL bytes in paths are not modelled; reading a file is a parameter.
* **aclcheck**: QoS output is not modelled.
* **aclgenerator**: `re.sub` is modelled for the literal words in the shipped abbreviation table; `WrapWords` with its default joiner (C176); `HexDigest` is not modelled, revision-tag texts only for Juniper. White space of regular expressions is that of `str.isspace`.
* **aclgen**: parsing and rendering of one policy are parameters, the search for files is modelled apart on trees without symbolic links, with ignored directories that have no wildcards; files are texts or byte strings in a flat disk without links; undecodable files and `mkdir` are not modelled. The pool is an arbitrary interleaving of the tasks.
* **cisco, ciscoxr, cisconx, arista, brocade**: lines are token lists instead of text; remarks, header comments and `owner` lines are not modelled; if several errors apply the model raises one of them. Duplicate removal is modelled on groups and lists instead of on text.
* **juniper**: the theorems on traffic are about statements; their text is a separate step (`Model/JuniperText.lean`) with the text of a network as a parameter; the indentation and brace discipline of `Config` is modelled on characters, and so are the comments of addresses, terms and filters, apart from the statements.
* **iptables, ipset, speedway**: rules are argument lists instead of text; comment rules are not modelled except for their place; one target per header; if several errors apply the model raises one of them.
* **pcap**: expressions are token lists instead of text; one target per header; the rendered text is read back by a separate reader.
* **cloudarmor**: rules are values instead of JSON; one target per header.
* **openconfig**: entries are values instead of JSON, without descriptions; one target per header; the order in which the set of families is run through is a parameter.
* **sonic**: rules are values instead of JSON; one target per header; the order in which the set of families is run through is a parameter of each filter; numbers that run out are noticed after the terms of the filter are rendered.
* **gce**: rules are values instead of JSON; one target per header; priorities and limits are numbers made of digits; the fields `loss_priority`, `policer` and `qos` are one flag; the order in which the set of families is run through is a parameter.
* **k8s**: objects are values instead of YAML; names have no line breaks; the fields `loss_priority`, `policer` and `qos` are one flag; the failure without any filter of the platform is left out.
* **nftables**: lines of rules are values instead of text; remarks and comments are texts; `str.lower` and `str.isdigit` are the ASCII ones; errors of headers are one kind.
* **packetfilter**: rules are values instead of text, tables are lists of networks; one target per header; comments are not modelled.
* **junipersrx**: policies, address books and applications are values; their lines are token lists with opening and closing lines; their text with indentation, networks, groups and comments (`owner`, `noverbose`) is a separate step (`Model/SrxText.lean`) with the text of a network as a parameter; one target per header, whose zones and options are fields of the filter; the meaning of replaced sections is not modelled.
* **aruba**: rules and netdestinations are values instead of text, comments are not modelled; the order in which a set of two ports is run through is a parameter; one target per header, a header without a target for the platform has no options.
* **gcp_hf**: rules are values instead of dictionaries; the orders in which the sets of families and versions are run through are parameters; one target per header; a header refused for leftover options and another name is refused with another error in the code.
* **ciscoasa**: lines are values instead of text; remarks and revision tags, which have no effect, are left out, except for remarks without `access-list`, which are no commands.
* **windows_advfirewall, windows_ipsec**: commands are values instead of text; comments and revision tags are left out; one target per header.
* **arista_tp**: entries, field sets and counters are values instead of text, and the substitution of field set names acts on every name and counter of an entry; comments, revision tags and the wrapping of long lines are left out; one target per header.
* **nsxv, nsxt**: rules are values instead of XML and JSON; of comments only that they may make the XML ill-formed is kept; one target per header; if several errors apply the model raises one of them.
* **paloaltofw**: the output is a value instead of XML, without descriptions, tags and timeouts; `HexDigest` is a parameter; one target per header; if several errors apply the model raises one of them.
* **gce_vpc_tf**: as gce; what the code has in common with `gce.py` line by line is taken from its model; resources are a list instead of a dictionary by names.
* **cgrep**: what is printed is modelled as lists of tokens and networks instead of text, `argparse` is not modelled.
* **policyreader**: a file is its lines, each a list of words; `__str__` and the colours of the output are not modelled.
* **versa**: the output is a value, whose text is a separate step (`Model/VersaTree.lean`) with the text of a network as a parameter; the addresses of a group are sorted by number instead of by number as text; parts of a large term copy the lists that they share in the code; log messages are left out; one target per header.
* **junipermsmpc**: the output is a value instead of text; comments, annotations and the wrapping of long lines are left out; one target per header; if several errors apply the model raises one of them.
* **policy_simple**: the class of a field is its key in `field_map`; a set of names is its sorted list; `lower`, `isdigit` and `isupper` are the ASCII ones; log messages and what `Describe` does after its first set are left out (that part is never reached).
* **juniperevo, srxlo**: the changed keyword table is modelled by changing the keywords of the printed protocol conditions; mixed filters are left out. The entry `hop-by-hop` that printing adds to the table of protocols shared by all generators is not carried over to other filters.
* **not modelled at all**: the other generators, command-line flag parsing, logging.

### Device semantics assumed (in `Spec/`)

* Cisco: first match with implicit deny; wildcard masks as bit masks; `established` = ACK or RST.
* Junos: `address`/`except` by longest prefix, a list with only `except` entries implicitly admits the rest, terms in order, `next term`, implicit discard at the end.
* Linux: rules in order, user chains with RETURN, `multiport` at most 15 ports, `--state` by connection tracking with NEW/ESTABLISHED/RELATED only, `u32` reads the bytes of the header of the packet's own family.
* pcap: `and` and `or` have equal precedence and associate to the left, `not` binds tighter; `tcp[...]` and `icmp[...]` see IPv4 packets only; `port` means tcp, udp or sctp; an empty expression captures everything.
* Cloud Armor and OpenConfig: of the rules that match, the one with the lowest number acts; an OpenConfig entry with a port matches packets of tcp, udp, udplite and sctp only; a field that is not set does not restrict.
* SONiC: the rules directly under `ACL_RULE` count; of those that match, the one with the highest priority acts; ports as for OpenConfig; a rule with `TCP_FLAGS` matches established TCP only.
* GCE: a rule applies to its direction and network; of the rules that match, one with the lowest priority number (1000 if none) acts, a deny before an accept; source ranges, source tags and source accounts are alternatives.
* Kubernetes: an object replaces an earlier one of the same name; if no object has the direction of a flow, it passes; otherwise it passes if a rule of an object of its direction matches; a rule without port selectors is for all traffic; objects must have DNS names, exceptions properly inside their block, TCP, UDP or SCTP, and ports from 1.
* nftables: a packet runs through all base chains of its hook in all tables of its family and must be accepted by each; blocks of the same chain name in a table are one chain; a jump returns at the end of the chain; `meta l4proto` is for both families, `ip protocol` for IPv4; protocol names are those of `/etc/protocols`, where `ipip` is 94.
* pf: a packet is looked at once in and once out; a matching rule with `quick` decides, otherwise the last one that matches; without a match it passes; a list of addresses matches if one element does, also a negated one; a table that is not defined is empty; flags restrict TCP packets only; `keep state` without flags means `flags S/SA`.
* SRX: only packets that open a session are looked at; policies for the two zones come before global ones, the first that matches decides, otherwise the packet is denied; address sets are looked up in the global book and in that of the zone the packet comes from or goes to; a term of an application matches if its protocol, ports and ICMP type do.
* Aruba: the rules of an access list in order, the first that matches acts; an alias is every netdestination of its name and family; two ports are the first and the last of a range; a rule with `no` or without an action does nothing.
* Cisco ASA: `clear configure access-list` empties a list, `access-list … extended` appends to it, the first entry that matches acts; a line with words the device does not know does nothing; nothing is claimed of outputs with verbatim texts.
* Windows firewall: a packet that a blocking rule of its direction matches is blocked, whatever else matches; protocols have names for tcp, udp, icmpv4, icmpv6 and any, others are numbers; ports need tcp or udp; a command with other words does nothing. IPsec: a filter is mirrored; it is for IPv4 and has at most one port per side; protocols have names for icmp, tcp, udp and any.
* Arista traffic policies: `no traffic-policy` removes a policy, `traffic-policy` goes on with it; field sets are shared by all policies, one that is there already is extended, and one that is not defined matches nothing; the first entry that matches decides, those called `ipv4-default-all` and `ipv6-default-all` come last; protocols have ten names, others are numbers.
* NSX: only packets that open a connection are looked at; the first rule that matches decides; addresses and services of a rule are alternatives, a rule without them is for any; a rule of NSX-T is for the IP versions it lists.
* Terraform for Google Compute Engine: the rules are those of the firewall, of which the one with the lowest priority that matches decides, denying ones first among equals; filters for one network and direction share the numbering.
* Palo Alto: only packets that open a session are looked at; the first rule for their zones that matches decides; members, services and applications are alternatives; a name stands for all addresses and groups that have it, none has the empty name; an application is what protocol and ICMP type say, with its default ports or not.
* Hierarchical firewalls: of the rules for the direction and network that match, the one with the lowest priority number decides; ranges and threat lists of a side are alternatives; a rule without ranges and lists is for any address.
* Packets (`Spec.Packet`) have protocol and icmp names with IANA numbers; `Coherent`/`Sound` say which option names stand for the same fact.
